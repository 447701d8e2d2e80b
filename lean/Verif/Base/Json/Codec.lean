import Verif.Base.Float64
import Verif.Base.Json.Time

/-!
# Go values as JSON

How `encoding/json` writes and reads the field types of the structures of the module: strings,
unsigned integers, float64, times, slices, pointers and structures with tags. A codec has the zero
value of the type, the tree that is written (`none`: marshalling fails), what reading a tree
makes of an existing value (`none`: an error; the library goes on with the other fields and returns
the error at the end, and all callers in the module drop the value then), and what becomes of a value
that is written and read: strings are turned into valid UTF-8.

When a member occurs again in an object, the elements of the second array are read into what the first
one left behind. Simplification: the library also finds again what was left behind the end of an array
by an earlier, longer one, which takes a third occurrence of the member.
-/

namespace Verif

/-- Writing and reading of a Go type. -/
structure Codec (α : Type) where
  zero : α
  enc : α → Option Json
  dec : Json → α → Option α
  norm : α → α

variable {α σ : Type}

/-- The value is read back from what is written for it. -/
def Codec.Good (c : Codec α) (a : α) : Prop :=
  ∀ j, c.enc a = some j → j.Proper ∧ ∀ old, c.dec j old = some (c.norm a)

/-- `json.Marshal`. -/
def Codec.text (c : Codec α) (a : α) : Option Bytes := (c.enc a).map Json.render

/-- `json.Unmarshal` into a zero value. -/
def Codec.read (c : Codec α) (b : Bytes) : Option α := do
  let j ← parseJson b
  c.dec j c.zero

theorem Codec.Good.read {c : Codec α} {a : α} (h : c.Good a) {b : Bytes} (hb : c.text a = some b) :
    c.read b = some (c.norm a) := by
  unfold Codec.text at hb
  simp only [Option.map_eq_some_iff] at hb
  obtain ⟨j, h1, rfl⟩ := hb
  obtain ⟨h2, h3⟩ := h j h1
  simp [Codec.read, parseJson_render h2, h3]

/-! ## Strings -/

/-- Strings (`encode.go`, `stringEncoder`; `decode.go`, `literalStore`). -/
def strC : Codec Bytes where
  zero := []
  enc b := some (.str (jsonEsc b))
  dec
    | .null, old => some old
    | .str l, _ => some (unquote l)
    | _, _ => none
  norm := jsonText

theorem strC_good (b : Bytes) : strC.Good b := by
  intro j hj
  simp only [strC, Option.some.injEq] at hj
  subst hj
  refine ⟨isStrLit_jsonEsc b, fun old => ?_⟩
  simp [strC, unquote_jsonEsc]

/-! ## Unsigned integers -/

/-- The value of digits. -/
def decNat (b : Bytes) : Nat := b.foldl (fun a (c : UInt8) => 10 * a + (c.toNat - 48)) 0

/-- `strconv.ParseUint(l, 10, 64)`. -/
def parseUint (l : Bytes) : Option UInt64 :=
  if l ≠ [] ∧ (∀ c ∈ l, isDigit c = true) ∧ decNat l < 2 ^ 64 then some (UInt64.ofNat (decNat l))
  else none

/-- `uint` and `uint64`. -/
def uintC : Codec UInt64 where
  zero := 0
  enc n := some (.num (natDec n.toNat))
  dec
    | .null, old => some old
    | .num l, _ => parseUint l
    | _, _ => none
  norm := id

theorem decNat_foldl (b : Bytes) (a : Nat) :
    b.foldl (fun a (c : UInt8) => 10 * a + (c.toNat - 48)) a = a * 10 ^ b.length + decNat b := by
  unfold decNat
  induction b generalizing a with
  | nil => simp
  | cons c b ih =>
    simp only [List.foldl_cons, List.length_cons]
    rw [ih, ih (10 * 0 + (c.toNat - 48))]
    ring

theorem decNat_append (a b : Bytes) : decNat (a ++ b) = decNat a * 10 ^ b.length + decNat b := by
  conv_lhs => unfold decNat
  rw [List.foldl_append, decNat_foldl]
  rfl

theorem decNat_digits (ds : List Nat) (h : ∀ d ∈ ds, d < 10) :
    decNat (ds.reverse.map fun d => UInt8.ofNat (48 + d)) = Nat.ofDigits 10 ds := by
  induction ds with
  | nil => rfl
  | cons d ds ih =>
    rw [List.reverse_cons, List.map_append, decNat_append, ih fun x hx => h x (by simp [hx])]
    have : decNat ([d].map fun d => UInt8.ofNat (48 + d)) = d := by
      simp only [decNat, List.map_cons, List.map_nil, List.foldl_cons, List.foldl_nil]
      rw [digitVal (h d (by simp))]
      omega
    rw [this, Nat.ofDigits_cons]
    simp
    ring

theorem decNat_natDec (n : Nat) : decNat (natDec n) = n := by
  unfold natDec
  split
  · rename_i h; subst h; rfl
  · rw [decNat_digits _ fun d hd => Nat.digits_lt_base (by norm_num) hd, Nat.ofDigits_digits]

theorem isNumLit_natDec (n : Nat) : IsNumLit (natDec n) := by
  refine isNumLit_of_digits (natDec_ne_nil n) (natDec_digits n) ?_
  unfold natDec
  split
  · exact .inl rfl
  · rename_i h
    right
    have hne : Nat.digits 10 n ≠ [] := by simp [Nat.digits_eq_nil_iff_eq_zero, h]
    have h1 := Nat.getLast_digit_ne_zero 10 h
    have h2 : (Nat.digits 10 n).getLast hne < 10 :=
      Nat.digits_lt_base (by norm_num) (List.getLast_mem hne)
    rw [List.head?_map, List.head?_reverse, List.getLast?_eq_some_getLast hne]
    simp only [Option.map_some, ne_eq, Option.some.injEq]
    intro e
    have := congrArg UInt8.toNat e
    rw [digitByte_toNat h2] at this
    simp at this
    exact h1 this

theorem parseUint_natDec (n : UInt64) : parseUint (natDec n.toNat) = some n := by
  unfold parseUint
  rw [if_pos ⟨natDec_ne_nil _, natDec_digits _, by rw [decNat_natDec]; exact n.toNat_lt⟩,
    decNat_natDec]
  simp

theorem uintC_good (n : UInt64) : uintC.Good n := by
  intro j hj
  simp only [uintC, Option.some.injEq] at hj
  subst hj
  exact ⟨isNumLit_natDec _, fun old => parseUint_natDec n⟩

/-! ## float64 -/

/-- The value of a number literal. -/
def numVal (l : Bytes) : ℚ :=
  let s := if l.head? = some 45 then l.tail else l
  let i := s.takeWhile isDigit
  let s1 := s.dropWhile isDigit
  let f := if s1.head? = some 46 then s1.tail.takeWhile isDigit else []
  let s2 := if s1.head? = some 46 then s1.tail.dropWhile isDigit else s1
  let e : ℤ := match s2 with
    | [] => 0
    | _ :: r =>
      match r with
      | 45 :: r' => -(decNat r' : ℤ)
      | 43 :: r' => decNat r'
      | r => decNat r
  (if l.head? = some 45 then -1 else 1) * (decNat (i ++ f) : ℚ) * 10 ^ (e - f.length)

/-- `strconv.ParseFloat(l, 64)` of a number literal: the nearest float64; out of range is an error. -/
def parseFloat (l : Bytes) : Option ℚ :=
  let r := rnd64 (numVal l)
  if |r| < 2 ^ 1024 then some r else none

/-- The finite float64 values. -/
def IsFloat (q : ℚ) : Prop := IsF64 q ∧ |q| < 2 ^ 1024

/-- How a float64 is written (`encode.go`, `floatEncoder`, with `strconv.AppendFloat` and precision
-1): a number literal from which `strconv.ParseFloat` returns the value exactly, as documented. The
digits are not modelled further. -/
class FloatText where
  fmt : ℚ → Bytes
  lit : ∀ q, IsFloat q → IsNumLit (fmt q)
  exact : ∀ q, IsFloat q → parseFloat (fmt q) = some q

/-- `float64`; NaN and infinities are an error. -/
def fltC [FloatText] : Codec Flt where
  zero := .fin 0
  enc
    | .fin q => some (.num (FloatText.fmt q))
    | _ => none
  dec
    | .null, old => some old
    | .num l, _ => (parseFloat l).map .fin
    | _, _ => none
  norm := id

/-- The float64 values: not every rational is one. -/
def Flt.IsFloat : Flt → Prop
  | .fin q => Verif.IsFloat q
  | _ => True

theorem fltC_good [FloatText] {x : Flt} (h : x.IsFloat) : fltC.Good x := by
  intro j hj
  cases x with
  | fin q =>
    simp only [fltC, Option.some.injEq] at hj
    subst hj
    exact ⟨FloatText.lit q h, fun old => by simp [fltC, FloatText.exact q h]⟩
  | _ => simp [fltC] at hj

/-! ## Times -/

/-- `time.Time`. -/
def timeC : Codec Int where
  zero := 0
  enc t := (fmtTime t).map .str
  dec
    | .null, old => some old
    | .str l, _ => parseTime l
    | _, _ => none
  norm := id

theorem timeC_good (t : Int) : timeC.Good t := by
  intro j hj
  simp only [timeC, Option.map_eq_some_iff] at hj
  obtain ⟨b, h1, rfl⟩ := hj
  exact ⟨fmtTime_lit h1, fun old => parseTime_fmtTime h1⟩

/-! ## Slices and pointers -/

/-- The elements of an array read one by one into the elements that are there, and into zero values
behind their end (`decode.go`, `array`). -/
def decElems (c : Codec α) : List Json → List α → Option (List α)
  | [], _ => some []
  | v :: vs, old => do
    let a ← c.dec v (old.head?.getD c.zero)
    let as ← decElems c vs old.tail
    return a :: as

/-- Slices; all slices that the module marshals are made with `[]T{}`, so an empty one is written as
`[]`. `null` is read as an empty slice. -/
def listC (c : Codec α) : Codec (List α) where
  zero := []
  enc l := (l.mapM c.enc).map .arr
  dec
    | .null, _ => some []
    | .arr vs, old => decElems c vs old
    | _, _ => none
  norm := List.map c.norm

theorem listC_good {c : Codec α} {l : List α} (h : ∀ a ∈ l, c.Good a) : (listC c).Good l := by
  intro j hj
  simp only [listC, Option.map_eq_some_iff] at hj
  obtain ⟨vs, h1, rfl⟩ := hj
  suffices hs : properElems vs ∧ ∀ old, decElems c vs old = some (l.map c.norm) from
    ⟨by simpa [Json.Proper] using hs.1, fun old => hs.2 old⟩
  induction l generalizing vs with
  | nil =>
    simp at h1
    subst h1
    simp [properElems, decElems]
  | cons a l ih =>
    simp only [List.mapM_cons, Option.pure_def, Option.bind_eq_bind, Option.bind_eq_some_iff,
      Option.some.injEq] at h1
    obtain ⟨j, h2, js, h3, rfl⟩ := h1
    obtain ⟨h4, h5⟩ := h a (by simp) j h2
    obtain ⟨h6, h7⟩ := ih (fun x hx => h x (by simp [hx])) js h3
    exact ⟨by simp [properElems, h4, h6], fun old => by simp [decElems, h5, h7]⟩

/-- Pointers: nil is `null`. -/
def ptrC (c : Codec α) : Codec (Option α) where
  zero := none
  enc
    | none => some .null
    | some a => c.enc a
  dec
    | .null, _ => some none
    | j, old => (c.dec j (old.getD c.zero)).map some
  norm := Option.map c.norm

/-- Never written as `null`. -/
def Codec.NotNull (c : Codec α) : Prop := ∀ a, c.enc a ≠ some .null

theorem ptrC_good {c : Codec α} (hc : c.NotNull) {p : Option α} (h : ∀ a ∈ p, c.Good a) :
    (ptrC c).Good p := by
  intro j hj
  cases p with
  | none =>
    simp only [ptrC, Option.some.injEq] at hj
    subst hj
    exact ⟨trivial, fun old => rfl⟩
  | some a =>
    simp only [ptrC] at hj
    obtain ⟨h1, h2⟩ := h a rfl j hj
    refine ⟨h1, fun old => ?_⟩
    cases j with
    | null => exact absurd hj (hc a)
    | _ => simp [ptrC, h2]

/-! ## Structures -/

/-- A field of a structure with the name in its tag. -/
structure Fld (σ : Type) where
  {α : Type}
  name : Bytes
  codec : Codec α
  get : σ → α
  set : α → σ → σ

/-- The letters of a member name in lower case, with the two letters outside of ASCII that fold to
ASCII ones: U+017F and U+212A (`fold.go`). -/
def foldName : Bytes → Bytes
  | 0xC5 :: 0xBF :: r => 115 :: foldName r
  | 0xE2 :: 0x84 :: 0xAA :: r => 107 :: foldName r
  | c :: r => lowerByte c :: foldName r
  | [] => []

/-- The field a member is read into: the one with that name, or else the first one with the same
name up to letter case (`decode.go`, `object`). -/
def pickField (fs : List (Fld σ)) (k : Bytes) : Option (Fld σ) :=
  match fs.find? fun f => f.name == k with
  | some f => some f
  | none => fs.find? fun f => foldName f.name == foldName k

/-- One member read into a structure; members without a field are skipped. -/
def readMember (fs : List (Fld σ)) (s : σ) (m : Bytes × Json) : Option σ :=
  match pickField fs (unquote m.1) with
  | none => some s
  | some f => (f.codec.dec m.2 (f.get s)).map fun a => f.set a s

/-- One member written. -/
def writeMember (s : σ) (f : Fld σ) : Option (Bytes × Json) :=
  (f.codec.enc (f.get s)).map fun j => (f.name, j)

/-- Structures with tagged fields; `null` changes nothing. -/
def structC (zero : σ) (fs : List (Fld σ)) : Codec σ where
  zero := zero
  enc s := (fs.mapM (writeMember s)).map .obj
  dec
    | .null, old => some old
    | .obj ms, old => ms.foldlM (readMember fs) old
    | _, _ => none
  norm s := fs.foldl (fun a f => f.set (f.codec.norm (f.get s)) a) s

/-- Letters and underscores. -/
def isTagByte (c : UInt8) : Bool := (97 ≤ c && c ≤ 122) || (65 ≤ c && c ≤ 90) || c == 95

theorem structC_notNull (zero : σ) (fs : List (Fld σ)) : (structC zero fs).NotNull := by
  intro s h
  simp [structC] at h

theorem tagByte_range {c : UInt8} (h : isTagByte c = true) :
    (65 ≤ c.toNat ∧ c.toNat ≤ 122) ∧ c ≠ 92 := by
  revert h
  exact UInt8.forall_of_fin (P := fun c => isTagByte c = true →
    (65 ≤ c.toNat ∧ c.toNat ≤ 122) ∧ c ≠ 92) (by decide +kernel) c

theorem prefixable_tag {w : Bytes} (h : ∀ c ∈ w, isTagByte c = true) : Prefixable w := by
  induction w with
  | nil => exact prefixable_nil
  | cons c w ih =>
    refine Prefixable.append (v := [c]) ?_ (ih fun x hx => h x (by simp [hx]))
    have hc := h c (by simp)
    obtain ⟨h1, h2⟩ := tagByte_range hc
    refine prefixable_plain ?_ ?_ ?_
    · rw [UInt8.lt_iff_toNat_lt]; simp; omega
    · rintro rfl; simp at h1
    · exact h2

theorem unq_tag {w : Bytes} (h : ∀ c ∈ w, isTagByte c = true) : ∀ n, w.length ≤ n → unq n w = w := by
  induction w with
  | nil => intro n _; cases n <;> rfl
  | cons c w ih =>
    intro n hn
    simp only [List.length_cons] at hn
    obtain ⟨n, rfl⟩ : ∃ k, n = k + 1 := ⟨n - 1, by omega⟩
    have hc := h c (by simp)
    obtain ⟨h1, h2⟩ := tagByte_range hc
    have h92 : c ≠ 92 := h2
    have hr : runeSize (c :: w) = 1 := by
      have : inRange 0 0x7F c = true := by simp [inRange]; omega
      simp [runeSize, this]
    rw [unq.eq_5 _ _ _ (by intro s h; exact absurd h h92) (by intro e s h; exact absurd h h92), hr]
    simp [ih (fun x hx => h x (by simp [hx])) n (by omega)]

theorem unquote_tag {w : Bytes} (h : ∀ c ∈ w, isTagByte c = true) : unquote w = w :=
  unq_tag h _ le_rfl

theorem pickField_mem {fs : List (Fld σ)} (hn : (fs.map Fld.name).Nodup) {f : Fld σ}
    (hf : f ∈ fs) : pickField fs f.name = some f := by
  have : (fs.find? fun g => g.name == f.name) = some f := by
    induction fs with
    | nil => simp at hf
    | cons g fs ih =>
      simp only [List.map_cons, List.nodup_cons] at hn
      rcases List.mem_cons.mp hf with rfl | hf
      · simp
      · rw [List.find?_cons]
        have : g.name ≠ f.name := by
          intro e
          exact hn.1 (e ▸ List.mem_map_of_mem hf)
        rw [beq_false_of_ne this]
        exact ih hn.2 hf
  simp [pickField, this]

/-- The structure that is read has the written fields. -/
theorem readMembers_write {fs : List (Fld σ)} (hn : (fs.map Fld.name).Nodup)
    (ht : ∀ f ∈ fs, ∀ c ∈ f.name, isTagByte c = true) {s : σ} :
    ∀ (gs : List (Fld σ)) (ms : List (Bytes × Json)), (∀ g ∈ gs, g ∈ fs) →
    (∀ g ∈ gs, g.codec.Good (g.get s)) → gs.mapM (writeMember s) = some ms →
    properMembers ms ∧ ∀ acc, ms.foldlM (readMember fs) acc =
      some (gs.foldl (fun a g => g.set (g.codec.norm (g.get s)) a) acc)
  | [], ms, _, _, h => by
    simp at h
    subst h
    simp [properMembers]
  | g :: gs, ms, hm, hg, h => by
    simp only [List.mapM_cons, Option.pure_def, Option.bind_eq_bind, Option.bind_eq_some_iff,
      Option.some.injEq] at h
    obtain ⟨m, h2, ms', h3, rfl⟩ := h
    obtain ⟨h4, h5⟩ := readMembers_write hn ht gs ms' (fun x hx => hm x (by simp [hx]))
      (fun x hx => hg x (by simp [hx])) h3
    unfold writeMember at h2
    simp only [Option.map_eq_some_iff] at h2
    obtain ⟨j, h6, rfl⟩ := h2
    obtain ⟨h7, h8⟩ := hg g (by simp) j h6
    have hgf := hm g (by simp)
    refine ⟨?_, fun acc => ?_⟩
    · simp only [properMembers]
      exact ⟨(prefixable_tag (ht g hgf)).isStrLit, h7, h4⟩
    · simp only [List.foldlM_cons, List.foldl_cons]
      have : readMember fs acc (g.name, j) = some (g.set (g.codec.norm (g.get s)) acc) := by
        simp [readMember, unquote_tag (ht g hgf), pickField_mem hn hgf, h8]
      rw [this]
      simp [h5]

/-- A structure is read back when its tags are different words, its fields are read back and setting
all of them makes up the structure. -/
theorem structC_good {zero s : σ} {fs : List (Fld σ)} (hn : (fs.map Fld.name).Nodup)
    (ht : ∀ f ∈ fs, ∀ c ∈ f.name, isTagByte c = true) (hg : ∀ f ∈ fs, f.codec.Good (f.get s))
    (hs : ∀ acc, fs.foldl (fun a g => g.set (g.codec.norm (g.get s)) a) acc =
      (structC zero fs).norm s) : (structC zero fs).Good s := by
  intro j hj
  simp only [structC, Option.map_eq_some_iff] at hj
  obtain ⟨ms, h1, rfl⟩ := hj
  obtain ⟨h2, h3⟩ := readMembers_write hn ht fs ms (fun _ h => h) hg h1
  exact ⟨by simpa [Json.Proper] using h2, fun old => (h3 old).trans (congrArg some (hs old))⟩

/-- What is written for a structure is an object, so that no strict prefix of it is read. -/
theorem structC_torn {zero s : σ} {fs : List (Fld σ)} (h : (structC zero fs).Good s) {b p q : Bytes}
    (hb : (structC zero fs).text s = some b) (hp : p ++ q = b) (hq : q ≠ []) :
    (structC zero fs).read p = none := by
  unfold Codec.text at hb
  simp only [Option.map_eq_some_iff] at hb
  obtain ⟨j, h1, rfl⟩ := hb
  obtain ⟨h2, -⟩ := h j h1
  simp only [structC, Option.map_eq_some_iff] at h1
  obtain ⟨ms, -, rfl⟩ := h1
  simp [Codec.read, parseJson_prefix h2 hp hq]

/-! ## What can be written -/

/-- Marshalling succeeds. -/
def Codec.Writes (c : Codec α) (a : α) : Prop := (c.enc a).isSome = true

theorem Codec.writes_iff {c : Codec α} {a : α} : c.Writes a ↔ ∃ b, c.text a = some b := by
  unfold Codec.Writes Codec.text
  cases c.enc a <;> simp

theorem mapM_isSome {β : Type*} {γ : Type*} (f : β → Option γ) (l : List β) :
    (l.mapM f).isSome = true ↔ ∀ x ∈ l, (f x).isSome = true := by
  induction l with
  | nil => simp
  | cons a l ih =>
    simp only [List.mapM_cons, List.forall_mem_cons, ← ih]
    cases f a <;> cases l.mapM f <;> simp

@[simp] theorem strC_writes (b : Bytes) : strC.Writes b := rfl

@[simp] theorem uintC_writes (n : UInt64) : uintC.Writes n := rfl

@[simp] theorem fltC_writes [FloatText] (x : Flt) : fltC.Writes x ↔ x.marshals = true := by
  cases x <;> simp [Codec.Writes, fltC, Flt.marshals]

/-- The times of the years 0 to 9999. -/
def Dated (t : Int) : Prop := -366 * dayNs ≤ t ∧ t < 3652059 * dayNs

instance (t : Int) : Decidable (Dated t) := inferInstanceAs (Decidable (_ ∧ _))

@[simp] theorem timeC_writes (t : Int) : timeC.Writes t ↔ Dated t := by
  have hd : (0 : Int) < dayNs := by decide
  have h1 : 0 ≤ t / dayNs + 366 ↔ -366 * dayNs ≤ t := by
    rw [← Int.le_ediv_iff_mul_le hd]; omega
  have h2 : t / dayNs + 366 < 3652425 ↔ t < 3652059 * dayNs := by
    rw [← Int.ediv_lt_iff_lt_mul hd]; omega
  simp only [Codec.Writes, timeC, fmtTime, Option.isSome_map, Dated, h1, h2]
  split <;> simp_all

@[simp] theorem listC_writes (c : Codec α) (l : List α) : (listC c).Writes l ↔ ∀ a ∈ l, c.Writes a := by
  simp only [Codec.Writes, listC, Option.isSome_map, mapM_isSome]

@[simp] theorem ptrC_writes (c : Codec α) (p : Option α) : (ptrC c).Writes p ↔ ∀ a ∈ p, c.Writes a := by
  cases p <;> simp [Codec.Writes, ptrC]

theorem structC_writes {zero s : σ} {fs : List (Fld σ)} :
    (structC zero fs).Writes s ↔ ∀ f ∈ fs, f.codec.Writes (f.get s) := by
  simp only [Codec.Writes, structC, Option.isSome_map, mapM_isSome, writeMember]

end Verif
