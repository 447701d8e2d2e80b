import Verif.Base.Bytes

/-!
# JSON texts

The grammar that `encoding/json` accepts (`scanner.go`), as a parser from texts to syntax trees, and
the compact rendering that `json.Marshal` produces. The limit on nesting of newer versions of the
library (10000) is not modelled. Strings and numbers are kept as the literals they are written with;
what they mean is a matter of the field they are read into (`Verif.Base.Json.Codec`).
-/

namespace Verif

/-- A JSON syntax tree. String literals are without their quotes. -/
inductive Json where
  | null
  | bool (b : Bool)
  | num (lit : Bytes)
  | str (lit : Bytes)
  | arr (vs : List Json)
  | obj (ms : List (Bytes × Json))

/-- The white space of JSON: space, tab, line feed, carriage return (`scanner.go`, `isSpace`). -/
def isWs (c : UInt8) : Bool := c == 32 || c == 9 || c == 10 || c == 13

/-- The text without leading white space. -/
def skipWs (s : Bytes) : Bytes := s.dropWhile isWs

/-- May the byte follow a backslash (`scanner.go`, `stateInStringEsc`), apart from `u`? -/
def isEsc (c : UInt8) : Bool :=
  c == 98 || c == 102 || c == 110 || c == 114 || c == 116 || c == 92 || c == 47 || c == 34

/-- The rest of a string literal after its opening quote: the literal up to the closing quote, and
the text behind it (`scanner.go`, `stateInString` and the states of escapes). -/
def strLit : Bytes → Option (Bytes × Bytes)
  | [] => none
  | [92] => none
  | 34 :: r => some ([], r)
  | 92 :: 117 :: a :: b :: c :: d :: r =>
    if isHexChar a && isHexChar b && isHexChar c && isHexChar d then
      (strLit r).map fun p => (92 :: 117 :: a :: b :: c :: d :: p.1, p.2)
    else none
  | 92 :: e :: r => if isEsc e then (strLit r).map fun p => (92 :: e :: p.1, p.2) else none
  | c :: r => if c < 32 then none else (strLit r).map fun p => (c :: p.1, p.2)

/-- One or more digits. -/
def digits1 (s : Bytes) : Option (Bytes × Bytes) :=
  if s.takeWhile isDigit = [] then none else some (s.takeWhile isDigit, s.dropWhile isDigit)

/-- The integer part of a number: zero, or digits without a leading zero. -/
def intPart : Bytes → Option (Bytes × Bytes)
  | 48 :: r => some ([48], r)
  | s => digits1 s

/-- The fraction of a number, possibly empty. -/
def fracPart : Bytes → Option (Bytes × Bytes)
  | 46 :: r => (digits1 r).map fun p => (46 :: p.1, p.2)
  | s => some ([], s)

/-- The exponent of a number, possibly empty. -/
def expPart : Bytes → Option (Bytes × Bytes)
  | e :: r =>
    if e == 101 || e == 69 then
      match r with
      | g :: r' =>
        if g == 43 || g == 45 then (digits1 r').map fun p => (e :: g :: p.1, p.2)
        else (digits1 r).map fun p => (e :: p.1, p.2)
      | [] => none
    else some ([], e :: r)
  | [] => some ([], [])

/-- A number without its sign. -/
def absNum (s : Bytes) : Option (Bytes × Bytes) := do
  let (i, s1) ← intPart s
  let (f, s2) ← fracPart s1
  let (e, s3) ← expPart s2
  return (i ++ (f ++ e), s3)

/-- A number literal and the text behind it (`scanner.go`, `stateNeg` to `stateE0`). -/
def numLit : Bytes → Option (Bytes × Bytes)
  | 45 :: r => (absNum r).map fun p => (45 :: p.1, p.2)
  | s => absNum s

mutual

/-- A value and the text behind it; the first argument bounds the recursion. -/
def parseVal : Nat → Bytes → Option (Json × Bytes)
  | 0, _ => none
  | n + 1, s =>
    match skipWs s with
    | 123 :: r =>
      match skipWs r with
      | 125 :: r' => some (.obj [], r')
      | r' => (parseMembers n r').map fun p => (.obj p.1, p.2)
    | 91 :: r =>
      match skipWs r with
      | 93 :: r' => some (.arr [], r')
      | r' => (parseElems n r').map fun p => (.arr p.1, p.2)
    | 34 :: r => (strLit r).map fun p => (.str p.1, p.2)
    | 116 :: 114 :: 117 :: 101 :: r => some (.bool true, r)
    | 102 :: 97 :: 108 :: 115 :: 101 :: r => some (.bool false, r)
    | 110 :: 117 :: 108 :: 108 :: r => some (.null, r)
    | s' => (numLit s').map fun p => (.num p.1, p.2)

/-- The members of an object up to its closing brace. -/
def parseMembers : Nat → Bytes → Option (List (Bytes × Json) × Bytes)
  | 0, _ => none
  | n + 1, s =>
    match skipWs s with
    | 34 :: r => do
      let (k, r1) ← strLit r
      match skipWs r1 with
      | 58 :: r2 => do
        let (v, r3) ← parseVal n r2
        match skipWs r3 with
        | 44 :: r4 => (parseMembers n r4).map fun p => ((k, v) :: p.1, p.2)
        | 125 :: r4 => some ([(k, v)], r4)
        | _ => none
      | _ => none
    | _ => none

/-- The elements of an array up to its closing bracket. -/
def parseElems : Nat → Bytes → Option (List Json × Bytes)
  | 0, _ => none
  | n + 1, s => do
    let (v, r1) ← parseVal n s
    match skipWs r1 with
    | 44 :: r2 => (parseElems n r2).map fun p => (v :: p.1, p.2)
    | 93 :: r2 => some ([v], r2)
    | _ => none

end

/-- `encoding/json`, `checkValid` and the tree that is then decoded: one value, with white space
around it. Every level of recursion consumes a byte, so the bound is no restriction. -/
def parseJson (s : Bytes) : Option Json :=
  match parseVal (s.length + 1) s with
  | some (v, r) => if skipWs r = [] then some v else none
  | none => none

/-! ## Rendering -/

mutual

/-- The compact text of a tree, as `json.Marshal` writes it. -/
def Json.render : Json → Bytes
  | .null => [110, 117, 108, 108]
  | .bool true => [116, 114, 117, 101]
  | .bool false => [102, 97, 108, 115, 101]
  | .num l => l
  | .str l => 34 :: (l ++ [34])
  | .arr [] => [91, 93]
  | .arr (v :: vs) => 91 :: (v.render ++ renderElems vs)
  | .obj [] => [123, 125]
  | .obj ((k, v) :: ms) => 123 :: 34 :: (k ++ 34 :: 58 :: (v.render ++ renderMembers ms))

/-- The elements after the first one, and the closing bracket. -/
def renderElems : List Json → Bytes
  | [] => [93]
  | v :: vs => 44 :: (v.render ++ renderElems vs)

/-- The members after the first one, and the closing brace. -/
def renderMembers : List (Bytes × Json) → Bytes
  | [] => [125]
  | (k, v) :: ms => 44 :: 34 :: (k ++ 34 :: 58 :: (v.render ++ renderMembers ms))

end

/-- A complete string literal without quotes. -/
def IsStrLit (l : Bytes) : Prop := strLit (l ++ [34]) = some (l, [])

/-- A complete number literal. -/
def IsNumLit (l : Bytes) : Prop := numLit l = some (l, [])

mutual

/-- All literals of the tree are literals of the grammar. -/
def Json.Proper : Json → Prop
  | .null => True
  | .bool _ => True
  | .num l => IsNumLit l
  | .str l => IsStrLit l
  | .arr vs => properElems vs
  | .obj ms => properMembers ms

def properElems : List Json → Prop
  | [] => True
  | v :: vs => v.Proper ∧ properElems vs

def properMembers : List (Bytes × Json) → Prop
  | [] => True
  | (k, v) :: ms => IsStrLit k ∧ v.Proper ∧ properMembers ms

end

end Verif
