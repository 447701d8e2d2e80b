import Verif.Base.Json.Codec
import Verif.Model.HashTree

/-!
# Hash trees as JSON texts

The structures of `libs/hashtree/json_*.go` with their tags.
-/

namespace Verif

/-- A field of a structure. -/
def fld {α σ : Type} (name : String) (c : Codec α) (get : σ → α) (set : α → σ → σ) : Fld σ :=
  ⟨ascii name, c, get, set⟩

/-- The same texts for another type. -/
def Codec.via {α β : Type} (c : Codec α) (fwd : β → α) (bwd : α → β) : Codec β where
  zero := bwd c.zero
  enc b := c.enc (fwd b)
  dec j old := (c.dec j (fwd old)).map bwd
  norm b := bwd (c.norm (fwd b))

theorem Codec.via_good {α β : Type} {c : Codec α} {fwd : β → α} {bwd : α → β} {b : β}
    (h : c.Good (fwd b)) : (c.via fwd bwd).Good b := by
  intro j hj
  obtain ⟨h1, h2⟩ := h j hj
  exact ⟨h1, fun old => by simp [Codec.via, h2]⟩

/-- `json_parentleaf.go:4-7`. -/
def parentC (c : Codec JLeaf) : Codec (JLeaf × JLeaf) :=
  structC (.null, .null) [fld "left" c Prod.fst fun a s => (a, s.2),
    fld "right" c Prod.snd fun a s => (s.1, a)]

/-- `json_leaf.go:4-7`, with any codec for the leaves below. -/
def leafBodyC (c : Codec JLeaf) : Codec (Bytes × Option (JLeaf × JLeaf)) :=
  structC ([], none) [fld "head" strC Prod.fst fun a s => (a, s.2),
    fld "node" (ptrC (parentC c)) Prod.snd fun a s => (s.1, a)]

/-- The structure a leaf points to. -/
def JLeaf.body : JLeaf → Option (Bytes × Option (JLeaf × JLeaf))
  | .null => none
  | .atom h => some (h, none)
  | .node h l r => some (h, some (l, r))

/-- The leaf that points to a structure. -/
def JLeaf.ofBody : Option (Bytes × Option (JLeaf × JLeaf)) → JLeaf
  | none => .null
  | some (h, none) => .atom h
  | some (h, some (l, r)) => .node h l r

/-- What is written for a pointer to a leaf. -/
def leafTree : JLeaf → Json
  | .null => .null
  | .atom h => .obj [(ascii "head", .str (jsonEsc h)), (ascii "node", .null)]
  | .node h l r => .obj [(ascii "head", .str (jsonEsc h)),
      (ascii "node", .obj [(ascii "left", leafTree l), (ascii "right", leafTree r)])]

/-- Texts replaced by valid ones. -/
def leafNorm : JLeaf → JLeaf
  | .null => .null
  | .atom h => .atom (jsonText h)
  | .node h l r => .node (jsonText h) (leafNorm l) (leafNorm r)

/-- Pointers to leaves; the argument bounds the nesting that is read. -/
def leafAt : Nat → Codec JLeaf
  | 0 => ⟨.null, fun a => some (leafTree a), fun _ _ => none, leafNorm⟩
  | n + 1 => ⟨.null, fun a => some (leafTree a),
      ((ptrC (leafBodyC (leafAt n))).via JLeaf.body JLeaf.ofBody).dec, leafNorm⟩

mutual

/-- Number of nodes. -/
def Json.size : Json → Nat
  | .arr vs => 1 + sizeElems vs
  | .obj ms => 1 + sizeMembers ms
  | _ => 1

def sizeElems : List Json → Nat
  | [] => 0
  | v :: vs => v.size + sizeElems vs

def sizeMembers : List (Bytes × Json) → Nat
  | [] => 0
  | (_, v) :: ms => v.size + sizeMembers ms

end

/-- `*JSONLeaf` (`json_leaf.go:4-7`). -/
def leafC : Codec JLeaf where
  zero := .null
  enc a := some (leafTree a)
  dec j old := (leafAt j.size).dec j old
  norm := leafNorm

/-- `json_compact.go:4-7`. -/
def compactC : Codec JCompact :=
  structC ⟨[], []⟩ [fld "head" strC JCompact.head fun a s => { s with head := a },
    fld "leaves" (listC leafC) JCompact.leaves fun a s => { s with leaves := a }]

/-- `json_hashtree.go:4-7`. -/
def hashTreeC : Codec JHashTree :=
  structC ⟨[], none⟩ [fld "head" strC JHashTree.head fun a s => { s with head := a },
    fld "node" (ptrC (parentC leafC)) JHashTree.node fun a s => { s with node := a }]

/-! ## Reading what was written -/

/-- The tags of a structure are different words, its fields are read back. -/
macro "struct_good " t:term : tactic => `(tactic| (
  refine structC_good ?_ ?_ ?_ fun _ => rfl
  · simp only [List.map_cons, List.map_nil, fld]
    decide +kernel
  · simp only [List.forall_mem_cons, fld, List.not_mem_nil, false_imp_iff, implies_true, and_true]
    decide +kernel
  · simp only [List.forall_mem_cons, fld, List.not_mem_nil, false_imp_iff, implies_true, and_true]
    exact $t))

theorem parentC_good {c : Codec JLeaf} {p : JLeaf × JLeaf} (h1 : c.Good p.1) (h2 : c.Good p.2) :
    (parentC c).Good p := by
  struct_good ⟨h1, h2⟩

theorem leafAt_enc (n : Nat) (a : JLeaf) :
    (leafAt (n + 1)).enc a = ((ptrC (leafBodyC (leafAt n))).via JLeaf.body JLeaf.ofBody).enc a := by
  have he : ∀ x, (leafAt n).enc x = some (leafTree x) := by cases n <;> intro x <;> rfl
  cases a with
  | null => rfl
  | atom h => rfl
  | node h l r =>
    simp [Codec.via, ptrC, JLeaf.body, leafBodyC, structC, writeMember, fld, parentC, he, leafAt,
      leafTree, strC]

/-- Height of a leaf. -/
def JLeaf.height : JLeaf → Nat
  | .null => 0
  | .atom _ => 0
  | .node _ l r => max l.height r.height + 1

theorem leafAt_good : ∀ (n : Nat) (a : JLeaf), a.height < n → (leafAt n).Good a
  | 0, _, h => absurd h (by omega)
  | n + 1, a, h => by
    have hg : ((ptrC (leafBodyC (leafAt n))).via JLeaf.body JLeaf.ofBody).Good a := by
      refine Codec.via_good (ptrC_good (structC_notNull _ _) ?_)
      intro b hb
      have hp : (ptrC (parentC (leafAt n))).Good b.2 := by
        refine ptrC_good (structC_notNull _ _) ?_
        intro p hp
        cases a with
        | null => simp [JLeaf.body] at hb
        | atom x => simp [JLeaf.body] at hb; subst hb; simp at hp
        | node x l r =>
          simp only [JLeaf.body, Option.mem_def, Option.some.injEq] at hb
          subst hb
          simp only [Option.mem_def, Option.some.injEq] at hp
          subst hp
          simp only [JLeaf.height] at h
          exact parentC_good (leafAt_good n l (by omega)) (leafAt_good n r (by omega))
      struct_good ⟨strC_good _, hp⟩
    intro j hj
    rw [leafAt_enc] at hj
    obtain ⟨h1, h2⟩ := hg j hj
    refine ⟨h1, fun old => (h2 old).trans (congrArg some ?_)⟩
    have hn : ∀ x, (leafAt n).norm x = leafNorm x := by cases n <;> intro x <;> rfl
    cases a with
    | null => rfl
    | atom x => rfl
    | node x l r =>
      simp [Codec.via, ptrC, JLeaf.body, leafBodyC, structC, fld, parentC, hn, JLeaf.ofBody, strC,
        leafAt, leafNorm]

theorem leafTree_size (a : JLeaf) : a.height < (leafTree a).size := by
  induction a with
  | null => simp [JLeaf.height, leafTree, Json.size]
  | atom h => simp [JLeaf.height, leafTree, Json.size, sizeMembers]
  | node h l r ihl ihr =>
    simp only [JLeaf.height, leafTree, Json.size, sizeMembers]
    omega

theorem leafC_good (a : JLeaf) : leafC.Good a := by
  intro j hj
  obtain rfl : leafTree a = j := by simpa [leafC] using hj
  have he : ∀ n, (leafAt n).enc a = some (leafTree a) := by intro n; cases n <;> rfl
  have hn : ∀ n, (leafAt n).norm a = leafNorm a := by intro n; cases n <;> rfl
  obtain ⟨h1, h2⟩ := leafAt_good _ a (leafTree_size a) _ (he _)
  exact ⟨h1, fun old => (h2 old).trans (congrArg some (hn _))⟩

theorem compactC_good (c : JCompact) : compactC.Good c := by
  struct_good ⟨strC_good _, listC_good fun a _ => leafC_good a⟩

theorem hashTreeC_good (t : JHashTree) : hashTreeC.Good t := by
  struct_good ⟨strC_good _, ptrC_good (structC_notNull _ _) fun p _ => parentC_good (leafC_good _) (leafC_good _)⟩

end Verif
