import Verif.Base.Bytes

/-!
# Model of `libs/hash`
-/

namespace Verif

/-- `libs/hash/sdk.go`: `type Hash [64]byte`. -/
structure Hash where
  /-- `libs/hash/hash.go:25-32` (`Bytes`). -/
  bytes : Bytes
  len : bytes.length = 64

namespace Hash

@[ext] theorem ext {a b : Hash} (h : a.bytes = b.bytes) : a = b := by
  cases a; cases b; cases h; rfl

instance : DecidableEq Hash := fun a b =>
  if h : a.bytes = b.bytes then isTrue (ext h) else isFalse fun e => h (congrArg Hash.bytes e)

/-- `libs/hash/hash.go:10-22` (`Compare`): byte-wise equality. -/
def compare (a b : Hash) : Bool := a.bytes == b.bytes

/-- `libs/hash/hash.go:35-38` (`String`): lower case hex of the bytes. -/
def str (h : Hash) : Bytes := hexEncode h.bytes

/-- `filepath.Join(a, b)` for names without `/` and dots, the only case used here: empty elements
are skipped. -/
def joinPath (a b : Bytes) : Bytes := if a = [] then b else if b = [] then a else a ++ 47 :: b

/-- `libs/hash/hash.go:45-54`: the loop of `Path`; `i` is the index, `out` and `cur` are the local
variables `out` and `currentFolder` (`amountLettersPerFolder` = 16, `libs/hash/sdk.go`). -/
def pathLoop : Nat → Bytes → Bytes → Bytes → Bytes × Bytes
  | _, out, cur, [] => (out, cur)
  | i, out, cur, c :: cs =>
    if cur ≠ [] ∧ i % 16 = 0 then pathLoop (i + 1) (joinPath out cur) [c] cs
    else pathLoop (i + 1) out (cur ++ [c]) cs

/-- `libs/hash/hash.go:41-61` (`Path`). -/
def path (h : Hash) : Bytes :=
  let r := pathLoop 0 [] [] h.str
  if r.2 ≠ [] then joinPath (joinPath r.1 r.2) h.str else joinPath r.1 h.str

end Hash

/-- SHA-512 as used by `libs/hash/adapter.go:19-25`: an arbitrary function from byte strings to 64
bytes. Nothing is assumed about it. -/
class Sha512 where
  sum : Bytes → Hash

section
variable [Sha512]

/-- `libs/hash/adapter.go:17-34` (`FromBytes`). `sha512.Write` never fails, so there is no error. -/
def fromBytes (x : Bytes) : Hash :=
  if h : x.length = 64 then ⟨x, h⟩ else Sha512.sum x

/-- `libs/hash/adapter.go:37-44` (`FromMultiBytes`). -/
def fromMultiBytes (rows : List Bytes) : Hash := fromBytes rows.flatten

/-- `libs/hash/adapter.go:47-59` (`FromString`). -/
def fromString (s : Bytes) : Outcome Hash :=
  match hexDecode s with
  | none => .err "hex: invalid input"
  | some b => .ok (fromBytes b)

end

end Verif
