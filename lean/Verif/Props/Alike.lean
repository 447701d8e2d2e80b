import Verif.Props.Committed
import Verif.Spec.Alike

/-!
# The hash of a chain commits to everything in it: C144

For every kind of object of the chain: two objects have the same hash if and only if they are alike, in the
sense of `Spec/Alike.lean`, or two different texts hashed somewhere in them have the same SHA-512 value.
-/

namespace Verif

section
variable [Sha512]

theorem Clash.mono {l l' m m' : List Bytes} (h : Clash l m) (hl : l ⊆ l') (hm : m ⊆ m') :
    Clash l' m' := by
  obtain ⟨x, hx, y, hy, e⟩ := h
  exact ⟨x, hl hx, y, hm hy, e⟩

theorem collision_swap {x y : Bytes} (h : ShaCollision x y) : ShaCollision y x :=
  ⟨h.1.symm, h.2.2.1, h.2.1, h.2.2.2.symm⟩

theorem Clash.of {x y : Bytes} {l m : List Bytes} (h : ShaCollision x y) (hx : x ∈ l) (hy : y ∈ m) :
    Clash l m := ⟨x, hx, y, hy, h⟩

/-- Lists of objects: if objects with the same hash are alike or clash, so are lists with the same hashes. -/
theorem alike_list {α : Type} {hash : α → Hash} {texts : α → List Bytes} {Alike : α → α → Prop} :
    ∀ {l m : List α}, (∀ x ∈ l, ∀ y ∈ m, hash x = hash y → Alike x y ∨ Clash (texts x) (texts y)) →
    l.map hash = m.map hash → List.Forall₂ Alike l m ∨ Clash (l.flatMap texts) (m.flatMap texts)
  | [], [], _, _ => .inl .nil
  | [], _ :: _, _, h => by simp at h
  | _ :: _, [], _, h => by simp at h
  | x :: l, y :: m, H, h => by
    simp only [List.map_cons, List.cons.injEq] at h
    rcases H x (by simp) y (by simp) h.1 with h1 | h1
    · rcases alike_list (fun a ha b hb => H a (by simp [ha]) b (by simp [hb])) h.2 with h2 | h2
      · exact .inl (.cons h1 h2)
      · exact .inr (h2.mono (by simp) (by simp))
    · exact .inr (h1.mono (by simp) (by simp))

omit [Sha512] in
theorem list_alike {α : Type} {hash : α → Hash} {Alike : α → α → Prop} :
    ∀ {l m : List α}, (∀ x ∈ l, ∀ y ∈ m, Alike x y → hash x = hash y) → List.Forall₂ Alike l m →
    l.map hash = m.map hash
  | _, _, _, .nil => rfl
  | _, _, H, .cons h t => by
    simp only [List.map_cons]
    rw [H _ (by simp) _ (by simp) h,
      list_alike (fun a ha b hb => H a (by simp [ha]) b (by simp [hb])) t]

/-! ## Locks and bills -/

theorem Lock.Alike.hash {l m : Lock} (hl : l.Built) (hm : m.Built) (h : l.Alike m) :
    l.hash = m.hash := by
  obtain ⟨_, _, hl⟩ := hl
  obtain ⟨_, _, hm⟩ := hm
  obtain ⟨k, -, -, -, rfl⟩ := lockNow_eq_ok.mp hl
  obtain ⟨k', -, -, -, rfl⟩ := lockNow_eq_ok.mp hm
  rcases h with h | h | h <;> simp only at h ⊢
  · rw [h]
  · rw [h]; simp [fromBytes_hash]
  · rw [h]; simp [fromBytes_hash]

theorem Lock.alike_of_hash {l m : Lock} (hl : l.Built) (hm : m.Built) (h : l.hash = m.hash) :
    l.Alike m ∨ Clash l.texts m.texts := by
  obtain ⟨_, _, hl⟩ := hl
  obtain ⟨_, _, hm⟩ := hm
  obtain ⟨k, rfl, -, -, e⟩ := lockNow_eq_ok.mp hl
  obtain ⟨k', rfl, -, -, e'⟩ := lockNow_eq_ok.mp hm
  rcases C73_same_hash_iff hl hm with hh | hh
  · left
    have := hh.mp h
    rw [e, e'] at this ⊢
    exact this
  · right
    refine Clash.of hh ?_ ?_
    · rw [e]; simp [Lock.texts, Lock.hashedText]
    · rw [e']; simp [Lock.texts, Lock.hashedText]

theorem Bill.hash_eq {b : Bill} (h : b.Built) : b.hash = fromBytes (b.lock.hash.bytes ++ itoaU b.amount) := by
  obtain ⟨-, _, _, _, h⟩ := h
  obtain ⟨_, _, _, rfl⟩ := billNow_eq_ok.mp h
  rfl

theorem Bill.Alike.hash {b c : Bill} (hb : b.Built) (hc : c.Built) (h : b.Alike c) : b.hash = c.hash := by
  rw [Bill.hash_eq hb, Bill.hash_eq hc, h.1.hash hb.1 hc.1, h.2]

theorem Bill.alike_of_hash {b c : Bill} (hb : b.Built) (hc : c.Built) (h : b.hash = c.hash) :
    b.Alike c ∨ Clash b.texts c.texts := by
  obtain ⟨lb, _, _, _, eb⟩ := hb
  obtain ⟨lc, _, _, _, ec⟩ := hc
  rcases C23_bill_hash_binds _ _ _ _ _ _ _ _ eb ec h with ⟨h1, h2⟩ | h1
  · rcases Lock.alike_of_hash lb lc h1 with h3 | h3
    · exact .inl ⟨h3, h2⟩
    · exact .inr (h3.mono (by simp [Bill.texts]) (by simp [Bill.texts]))
  · exact .inr (Clash.of h1 (by simp [Bill.texts]) (by simp [Bill.texts]))

/-! ## Contents -/

/-- The hash that a content uses for it. -/
def Spent.hash : Spent → Hash
  | .bill b => b.hash
  | .rest l => l.hash

/-- Built objects. -/
def Spent.Built : Spent → Prop
  | .bill b => b.Built
  | .rest l => l.Built

omit [Sha512] in
theorem Bill.text_length (b : Bill) : 64 < (b.lock.hash.bytes ++ itoaU b.amount).length ∧
    (b.lock.hash.bytes ++ itoaU b.amount).length < 128 := by
  have := b.lock.hash.len
  have := itoaU_length b.amount
  rw [List.length_append]
  omega

theorem Lock.hash_eq {l : Lock} (h : l.Built) : l.hash = fromBytes l.hashedText := by
  obtain ⟨_, _, h⟩ := h
  obtain ⟨k, -, -, -, rfl⟩ := lockNow_eq_ok.mp h
  simp [Lock.hashedText, hashesBytes]

theorem bill_for_lock {b : Bill} {l : Lock} (hb : b.Built) (hl : l.Built) (h : b.hash = l.hash) :
    l.pubKeys = [b.hash] ∨ ShaCollision (b.lock.hash.bytes ++ itoaU b.amount) l.hashedText := by
  have h0 := h
  rw [Bill.hash_eq hb, Lock.hash_eq hl] at h
  have hx := b.text_length
  have hlen : l.hashedText.length = 64 * l.pubKeys.length := by
    have : l.hashedText = hashesBytes l.pubKeys := by simp [Lock.hashedText, hashesBytes]
    rw [this, hashesBytes_length]
  by_cases h64 : l.hashedText.length = 64
  · left
    have hn : l.pubKeys.length = 1 := by omega
    obtain ⟨k, hk⟩ := List.length_eq_one_iff.mp hn
    have : l.hash = k := by
      rw [Lock.hash_eq hl, Lock.hashedText, hk]
      simp [fromBytes_hash]
    rw [hk, h0, this]
  · rcases fromBytes_eq_red (by omega) h64 h with e | e
    · exfalso
      rw [e, hlen] at hx
      omega
    · exact .inr e

theorem Spent.alike_of_hash {x y : Spent} (hx : x.Built) (hy : y.Built) (h : x.hash = y.hash) :
    x.Alike y ∨ Clash x.texts y.texts := by
  cases x with
  | bill b =>
    cases y with
    | bill c => exact Bill.alike_of_hash hx hy h
    | rest l =>
      exact (bill_for_lock hx hy h).imp id fun e =>
        Clash.of e (by simp [Spent.texts, Bill.texts]) (by simp [Spent.texts, Lock.texts])
  | rest l =>
    cases y with
    | bill c =>
      exact (bill_for_lock hy hx h.symm).imp id fun e =>
        Clash.of (collision_swap e) (by simp [Spent.texts, Lock.texts]) (by simp [Spent.texts, Bill.texts])
    | rest m => exact Lock.alike_of_hash hx hy h

theorem Spent.Alike.hash {x y : Spent} (hx : x.Built) (hy : y.Built) (h : x.Alike y) :
    x.hash = y.hash := by
  have key : ∀ {l : Lock} {k : Hash}, l.Built → l.pubKeys = [k] → k = l.hash := by
    intro l k hl hk
    rw [Lock.hash_eq hl, Lock.hashedText, hk]
    simp [fromBytes_hash]
  cases x with
  | bill b =>
    cases y with
    | bill c => exact Bill.Alike.hash hx hy h
    | rest l => exact key hy h
  | rest l =>
    cases y with
    | bill c => exact (key hx h).symm
    | rest m => exact Lock.Alike.hash hx hy h

theorem Content.parts {c : Content} (h : c.Built) :
    c.hash = fromBytes c.hashedText ∧ 64 < c.hashedText.length ∧
    c.hashedText = c.dest.lock.hash.bytes ++ (itoaU c.dest.amount ++ hashesBytes (c.spent.map Spent.hash)) ∧
    c.dest.Built ∧ ∀ x ∈ c.spent, x.Built := by
  obtain ⟨a, src, l, rem, t, h, hs, hl, hr⟩ := h
  obtain ⟨_, _, e1, e2, h0, hle, hiff, rfl⟩ := contentNow_eq_ok.mp h
  cases e1; cases e2
  have ht : (contentData l a src rem).flatten = Content.hashedText ⟨fromBytes (contentData l a src rem).flatten,
      src, ⟨fromBytes (l.hash.bytes ++ itoaU a), l, a, t⟩,
      rem.map fun r => ⟨fromBytes (r.hash.bytes ++ itoaU (sourceTotal src - a)), r, sourceTotal src - a, t⟩,
      t⟩ := by
    rw [contentData_flatten]
    cases rem <;> simp [Content.hashedText, hashesBytes, Function.comp_def]
  refine ⟨congrArg fromBytes ht, ?_, ?_, ⟨hl, some l, a, t, billNow_eq_ok.mpr ⟨_, rfl, h0, rfl⟩⟩, ?_⟩
  · rw [← ht]; exact contentData_length _ _ _ _
  · rw [← ht, contentData_flatten]
    cases rem <;> simp [Content.spent, Spent.hash, Function.comp_def]
  · intro x hx
    simp only [Content.spent, List.mem_append, List.mem_map, Option.mem_toList] at hx
    rcases hx with ⟨b, hb, rfl⟩ | ⟨r, hr', rfl⟩
    · exact hs b hb
    · cases rem with
      | none => cases hr'
      | some r' => cases hr'; exact hr _ rfl

theorem Content.alike_of_hash {c d : Content} (hc : c.Built) (hd : d.Built) (h : c.hash = d.hash) :
    c.Alike d ∨ Clash c.texts d.texts := by
  obtain ⟨e, n, t, b, s⟩ := Content.parts hc
  obtain ⟨e', n', t', b', s'⟩ := Content.parts hd
  rw [e, e'] at h
  rcases fromBytes_eq_red (by omega) (by omega) h with h | h
  · rw [t, t'] at h
    obtain ⟨h1, h2⟩ := hash_append_inj h
    obtain ⟨h2, h3⟩ := num_hashes_inj h2
    rcases Lock.alike_of_hash b.1 b'.1 h1 with h4 | h4
    · rcases alike_list (texts := Spent.texts) (Alike := Spent.Alike)
        (fun x hx y hy => Spent.alike_of_hash (s x hx) (s' y hy)) h3 with h5 | h5
      · exact .inl ⟨⟨h4, h2⟩, h5⟩
      · exact .inr (h5.mono (by simp [Content.texts]) (by simp [Content.texts]))
    · refine .inr (h4.mono ?_ ?_) <;>
        (intro z hz; simp only [Content.texts, Bill.texts, List.mem_cons, List.mem_append]; tauto)
  · exact .inr (Clash.of h (by simp [Content.texts]) (by simp [Content.texts]))

theorem Content.Alike.hash {c d : Content} (hc : c.Built) (hd : d.Built) (h : c.Alike d) :
    c.hash = d.hash := by
  obtain ⟨e, -, t, b, s⟩ := Content.parts hc
  obtain ⟨e', -, t', b', s'⟩ := Content.parts hd
  rw [e, e', t, t', h.1.1.hash b.1 b'.1, h.1.2,
    list_alike (hash := Spent.hash) (fun x hx y hy => Spent.Alike.hash (s x hx) (s' y hy)) h.2]

/-! ## Geneses and addresses -/

theorem Genesis.parts {g : Genesis} (h : g.Built) : g.hash =
    fromBytes (itoaU g.blockBase ++ fmtF12 g.blockIncrease ++ itoaU g.link ++ g.bill.hash.bytes) := by
  obtain ⟨-, _, _, _, _, _, h⟩ := h
  obtain ⟨b, rfl, -, -, -, rfl⟩ := genesisNow_eq_ok.mp h
  simp

theorem Genesis.Alike.hash {g h : Genesis} (hg : g.Built) (hh : h.Built) (a : g.Alike h) :
    g.hash = h.hash := by
  rw [Genesis.parts hg, Genesis.parts hh, a.1.hash hg.1 hh.1, a.2]

theorem Genesis.alike_of_hash {g h : Genesis} (hg : g.Built) (hh : h.Built) (e : g.hash = h.hash) :
    g.Alike h ∨ Clash g.texts h.texts := by
  obtain ⟨bg, _, _, _, _, _, hg⟩ := hg
  obtain ⟨bh, _, _, _, _, _, hh⟩ := hh
  rcases C66_same_hash_iff hg hh with hi | hi
  · obtain ⟨h1, h2⟩ := hi.mp e
    rcases Bill.alike_of_hash bg bh h1 with h3 | h3
    · left
      refine ⟨h3, ?_⟩
      obtain ⟨b, rfl, -, -, -, rfl⟩ := genesisNow_eq_ok.mp hg
      obtain ⟨b', rfl, -, -, -, rfl⟩ := genesisNow_eq_ok.mp hh
      exact h2
    · exact .inr (h3.mono (by simp [Genesis.texts]) (by simp [Genesis.texts]))
  · right
    obtain ⟨b, rfl, -, -, -, rfl⟩ := genesisNow_eq_ok.mp hg
    obtain ⟨b', rfl, -, -, -, rfl⟩ := genesisNow_eq_ok.mp hh
    exact Clash.of hi (by simp [Genesis.texts]) (by simp [Genesis.texts])

theorem Address.hash_eq {a : Address} (h : a.Built) : a.hash = fromBytes (hashesBytes a.members) := by
  obtain ⟨_, _, _, _, h⟩ := h
  obtain ⟨-, rfl⟩ := addressNow_eq_ok.mp h
  rfl

omit [Sha512] in
theorem Address.texts_eq (a : Address) : a.texts = [hashesBytes a.members] := by
  simp [Address.texts, hashesBytes]

theorem Address.alike_of_hash {a b : Address} (ha : a.Built) (hb : b.Built) (h : a.hash = b.hash) :
    a.Alike b ∨ Clash a.texts b.texts := by
  rcases fromHashes_iff a.members b.members with hi | hi
  · left
    rw [← Address.hash_eq ha, ← Address.hash_eq hb] at hi
    exact hi.mp h
  · exact .inr (Clash.of hi (by simp [Address.texts_eq]) (by simp [Address.texts_eq]))

theorem Address.Alike.hash {a b : Address} (ha : a.Built) (hb : b.Built) (h : a.Alike b) :
    a.hash = b.hash := by
  have hb' := Address.hash_eq hb
  have ha' := Address.hash_eq ha
  rcases h with h | h | h
  · rw [ha', hb', h]
  · rw [ha', h]; simp [fromBytes_hash]
  · rw [hb', h]; simp [fromBytes_hash]

/-! ## Expenses and transactions -/

variable [C : Curve]

theorem Expense.hash_eq {e : Expense} (h : e.Built) : e.hash = fromBytes e.hashedText := by
  obtain ⟨-, c, sigs, he⟩ := h
  obtain ⟨cn, sg, rfl, rfl, hf, rfl⟩ := expenseNow_eq_ok.mp he
  rfl

theorem Expense.hashedText_length {e : Expense} (h : e.Built) : e.hashedText.length ≠ 64 := by
  obtain ⟨⟨a, src, l, rem, t, hc, -⟩, c, sigs, he⟩ := h
  obtain ⟨cn, sg, rfl, rfl, hf, rfl⟩ := expenseNow_eq_ok.mp he
  obtain ⟨_, _, e, -, h1, h2, -, hcn⟩ := contentNow_eq_ok.mp hc
  cases e
  have hne : sg ≠ [] := by
    rintro rfl
    cases hf' : cn.source with
    | nil =>
      have : src = [] := by rw [← hf']; exact (congrArg Content.source hcn).symm
      subst this
      simp [sourceTotal] at h2
      omega
    | cons x xs => rw [hf'] at hf; cases hf
  obtain ⟨s, ss, rfl⟩ := List.exists_cons_of_ne_nil hne
  have := cn.hash.len
  have := List.length_pos_of_ne_nil (ringStr_ne_nil s)
  simp only [Expense.hashedText, List.map_cons, List.flatten_cons, List.length_append]
  omega

theorem Expense.alike_of_hash {e f : Expense} (he : e.Built) (hf : f.Built) (h : e.hash = f.hash) :
    e.Alike f ∨ Clash e.texts f.texts := by
  rcases C74_same_hash_iff he hf with hi | hi
  · obtain ⟨h1, h2⟩ := hi.mp h
    rcases Content.alike_of_hash he.1 hf.1 h1 with h3 | h3
    · exact .inl ⟨h3, h2⟩
    · exact .inr (h3.mono (by simp [Expense.texts]) (by simp [Expense.texts]))
  · exact .inr (Clash.of hi (by simp [Expense.texts, Expense.hashedText])
      (by simp [Expense.texts, Expense.hashedText]))

theorem Expense.Alike.hash {e f : Expense} (he : e.Built) (hf : f.Built) (h : e.Alike f) :
    e.hash = f.hash := by
  rw [Expense.hash_eq he, Expense.hash_eq hf, Expense.hashedText, Expense.hashedText,
    h.1.hash he.1 hf.1, ringStrs_eq_iff.mpr h.2]

/-- Built pieces. -/
def Piece.Built : Piece → Prop
  | .address a => a.Built
  | .bucket _ => True
  | .fee e => e.Built

theorem address_for_fee {a : Address} {e : Expense} (ha : a.Built) (he : e.Built) (h : a.hash = e.hash) :
    (a.members = [e.hash] ∨ (a.members.map Hash.bytes).flatten = e.hashedText) ∨
      ShaCollision (hashesBytes a.members) e.hashedText := by
  have hm : (a.members.map Hash.bytes).flatten = hashesBytes a.members := by simp [hashesBytes]
  have h0 := h
  rw [Address.hash_eq ha, Expense.hash_eq he] at h
  rcases fromBytes_eq_red' h with h | h | h | h
  · exact .inl (.inr (hm.trans h))
  · exact .inr h
  · left; left
    have h2 : hashesBytes a.members = (fromBytes e.hashedText).bytes := by
      rw [fromBytes_of_ne h.2.1]; exact h.2.2.symm
    rw [← Expense.hash_eq he] at h2
    exact hashesBytes_eq_bytes.mp h2
  · exact absurd h.1 (Expense.hashedText_length he)

theorem Piece.alike_of_hash {x y : Piece} (hx : x.Built) (hy : y.Built) (h : x.hash = y.hash) :
    x.Alike y ∨ Clash x.texts y.texts := by
  cases x with
  | address a =>
    cases y with
    | address b => exact Address.alike_of_hash hx hy h
    | bucket k => exact .inl h
    | fee e =>
      exact (address_for_fee hx hy h).imp id fun e =>
        Clash.of e (by simp [Piece.texts, Address.texts_eq]) (by simp [Piece.texts, Expense.texts])
  | bucket k =>
    cases y with
    | address b => exact .inl h.symm
    | bucket k' => exact .inl h
    | fee e => exact .inl h.symm
  | fee e =>
    cases y with
    | address b =>
      exact (address_for_fee hy hx h.symm).imp id fun e =>
        Clash.of (collision_swap e) (by simp [Piece.texts, Expense.texts]) (by simp [Piece.texts, Address.texts_eq])
    | bucket k' => exact .inl h
    | fee f => exact Expense.alike_of_hash hx hy h

theorem Piece.Alike.hash {x y : Piece} (hx : x.Built) (hy : y.Built) (h : x.Alike y) :
    x.hash = y.hash := by
  have key : ∀ {a : Address} {e : Expense}, a.Built → e.Built →
      (a.members = [e.hash] ∨ (a.members.map Hash.bytes).flatten = e.hashedText) → a.hash = e.hash := by
    intro a e ha he h
    rcases h with h | h
    · rw [Address.hash_eq ha, h]; simp [fromBytes_hash]
    · rw [Address.hash_eq ha, Expense.hash_eq he, ← h]; simp [hashesBytes]
  cases x with
  | address a =>
    cases y with
    | address b => exact Address.Alike.hash hx hy h
    | bucket k => exact h
    | fee e => exact key hx hy h
  | bucket k =>
    cases y with
    | address b => exact Eq.symm h
    | bucket k' => exact h
    | fee e => exact Eq.symm h
  | fee e =>
    cases y with
    | address b => exact (key hy hx h).symm
    | bucket k' => exact h
    | fee f => exact Expense.Alike.hash hx hy h

theorem Transaction.pieces_facts {x : Transaction} (h : x.Built) :
    x.hash = fromBytes (hashesBytes (x.pieces.map Piece.hash)) ∧
    (∀ p ∈ x.pieces, p.Built) ∧ hashesBytes (x.pieces.map Piece.hash) ∈ x.texts := by
  obtain ⟨ha, hf, _, _, _, _, h⟩ := h
  obtain ⟨-, rfl⟩ := trxNow_eq_ok.mp h
  refine ⟨?_, ?_, ?_⟩
  · simp only [Transaction.pieces]
    congr 2
    rename_i a b f t
    cases a <;> cases b <;> simp [Piece.hash, Function.comp_def]
  · intro p hp
    simp only [Transaction.pieces, List.mem_append, List.mem_map, Option.mem_toList] at hp
    rcases hp with (⟨a, ha', rfl⟩ | ⟨b, -, rfl⟩) | ⟨f, hf', rfl⟩
    · exact ha a ha'
    · trivial
    · exact hf f hf'
  · simp [Transaction.texts, hashesBytes, Function.comp_def]

theorem Transaction.alike_of_hash {x y : Transaction} (hx : x.Built) (hy : y.Built)
    (h : x.hash = y.hash) : x.Alike y ∨ Clash x.texts y.texts := by
  obtain ⟨e, b, t⟩ := Transaction.pieces_facts hx
  obtain ⟨e', b', t'⟩ := Transaction.pieces_facts hy
  rcases fromHashes_iff (x.pieces.map Piece.hash) (y.pieces.map Piece.hash) with hi | hi
  · rw [← e, ← e'] at hi
    rcases hi.mp h with h1 | h1 | h1
    · rcases alike_list (texts := Piece.texts) (Alike := Piece.Alike)
        (fun p hp q hq => Piece.alike_of_hash (b p hp) (b' q hq)) h1 with h2 | h2
      · exact .inl (.inl h2)
      · exact .inr (h2.mono (by simp [Transaction.texts]) (by simp [Transaction.texts]))
    · exact .inl (.inr (.inl h1))
    · exact .inl (.inr (.inr h1))
  · exact .inr (Clash.of hi t t')

theorem Transaction.Alike.hash {x y : Transaction} (hx : x.Built) (hy : y.Built) (h : x.Alike y) :
    x.hash = y.hash := by
  obtain ⟨e, b, -⟩ := Transaction.pieces_facts hx
  obtain ⟨e', b', -⟩ := Transaction.pieces_facts hy
  rcases h with h | h | h
  · rw [e, e', list_alike (hash := Piece.hash) (fun p hp q hq => Piece.Alike.hash (b p hp) (b' q hq)) h]
  · rw [e, h]; simp [fromBytes_hash]
  · rw [e', h]; simp [fromBytes_hash]

/-! ## Blocks, links and chains -/

theorem Block.hash_eq {b : Block} (h : b.Built) : b.hash = fromBytes
    (b.genesis.hash.bytes ++ (itoaU b.additional ++ hashesBytes (b.trx.map Transaction.hash))) := by
  obtain ⟨-, -, _, _, _, _, h⟩ := h
  obtain ⟨_, _, -, -, -, rfl⟩ := blockNow_eq_ok.mp h
  rfl

theorem Block.alike_of_hash {b c : Block} (hb : b.Built) (hc : c.Built) (h : b.hash = c.hash) :
    b.Alike c ∨ Clash b.texts c.texts := by
  obtain ⟨gb, xb, _, _, _, _, eb⟩ := hb
  obtain ⟨gc, xc, _, _, _, _, ec⟩ := hc
  rcases C44_block_hash_binds _ _ _ _ _ _ _ _ _ _ eb ec h with ⟨h1, h2, h3⟩ | h1
  · rcases Genesis.alike_of_hash gb gc h1 with h4 | h4
    · rcases alike_list (texts := Transaction.texts) (Alike := Transaction.Alike)
        (fun p hp q hq => Transaction.alike_of_hash (xb p hp) (xc q hq)) h3 with h5 | h5
      · exact .inl ⟨h4, h2, h5⟩
      · exact .inr (h5.mono (by simp [Block.texts]) (by simp [Block.texts]))
    · exact .inr (h4.mono (by simp [Block.texts]) (by simp [Block.texts]))
  · refine .inr (Clash.of h1 ?_ ?_) <;> simp [Block.texts, hashesBytes, Function.comp_def]

theorem Block.Alike.hash {b c : Block} (hb : b.Built) (hc : c.Built) (h : b.Alike c) : b.hash = c.hash := by
  rw [Block.hash_eq hb, Block.hash_eq hc, h.1.hash hb.1 hc.1, h.2.1,
    list_alike (hash := Transaction.hash) (fun p hp q hq => Transaction.Alike.hash (hb.2.1 p hp) (hc.2.1 q hq)) h.2.2]

theorem MinedBlock.alike_of_hash {m n : MinedBlock} (hm : m.Built) (hn : n.Built) (h : m.hash = n.hash) :
    m.Alike n ∨ Clash m.texts n.texts := by
  obtain ⟨bm, -, _, _, _, em⟩ := hm
  obtain ⟨bn, -, _, _, _, en⟩ := hn
  obtain ⟨_, rfl, e⟩ := minedBlockNow_eq_ok.mp em
  obtain ⟨_, rfl, e'⟩ := minedBlockNow_eq_ok.mp en
  rcases C49_mined_block_same_hash_iff em en with hi | hi
  · rcases hi.mp h with ⟨h1, h2⟩ | h1 | h1
    · rw [e] at bm; rw [e'] at bn
      rcases Block.alike_of_hash bm bn h1 with h3 | h3
      · exact .inl (.inl ⟨by rw [e, e']; exact h3, by rw [e, e']; exact h2⟩)
      · exact .inr (h3.mono (by rw [e]; simp [MinedBlock.texts]) (by rw [e']; simp [MinedBlock.texts]))
    · exact .inl (.inr (.inl ⟨by rw [e]; exact h1.1, by rw [← h1.2, e]⟩))
    · exact .inl (.inr (.inr ⟨by rw [e']; exact h1.1, by rw [← h1.2, e']⟩))
  · exact .inr (Clash.of hi (by rw [e]; simp [MinedBlock.texts]) (by rw [e']; simp [MinedBlock.texts]))

theorem MinedBlock.Alike.hash {m n : MinedBlock} (hm : m.Built) (hn : n.Built) (h : m.Alike n) :
    m.hash = n.hash := by
  have key : ∀ {m : MinedBlock}, m.Built → m.hash = fromBytes (m.block.hash.bytes ++ m.mining) := by
    rintro m ⟨-, -, _, _, _, em⟩
    obtain ⟨_, rfl, rfl⟩ := minedBlockNow_eq_ok.mp em
    rfl
  rcases h with ⟨h1, h2⟩ | ⟨h1, h2⟩ | ⟨h1, h2⟩
  · rw [key hm, key hn, h1.hash hm.1 hn.1, h2]
  · rw [key hm, h1, List.append_nil, fromBytes_hash, h2]
  · rw [key hn, h1, List.append_nil, fromBytes_hash, h2]

theorem Link.alike_of_hash {l m : Link} (hl : l.Built) (hm : m.Built) (h : l.hash = m.hash) :
    l.Alike m ∨ Clash l.texts m.texts := by
  obtain ⟨bl, _, _, _, _, el⟩ := hl
  obtain ⟨bm, _, _, _, _, em⟩ := hm
  rcases C43_link_hash_binds _ _ _ _ _ _ _ _ _ _ el em h with ⟨h1, h2, h3⟩ | h1
  · rcases Block.alike_of_hash bl bm h2 with h4 | h4
    · exact .inl ⟨h1, h4, h3⟩
    · exact .inr (h4.mono (by simp [Link.texts]) (by simp [Link.texts]))
  · exact .inr (Clash.of h1 (by simp [Link.texts]) (by simp [Link.texts]))

theorem Link.Alike.hash {l m : Link} (hl : l.Built) (hm : m.Built) (h : l.Alike m) : l.hash = m.hash := by
  have key : ∀ {l : Link}, l.Built →
      l.hash = fromBytes (l.prevLink.bytes ++ (l.next.hash.bytes ++ itoaU l.index)) := by
    rintro m ⟨-, _, _, _, _, em⟩
    obtain ⟨_, _, rfl, rfl, rfl⟩ := linkNow_eq_ok.mp em
    rfl
  rw [key hl, key hm, h.1, h.2.1.hash hl.1 hm.1, h.2.2]

theorem MinedLink.alike_of_hash {m n : MinedLink} (hm : m.Built) (hn : n.Built) (h : m.hash = n.hash) :
    m.Alike n ∨ Clash m.texts n.texts := by
  obtain ⟨bm, -, _, _, _, em⟩ := hm
  obtain ⟨bn, -, _, _, _, en⟩ := hn
  obtain ⟨_, rfl, e⟩ := minedLinkNow_eq_ok.mp em
  obtain ⟨_, rfl, e'⟩ := minedLinkNow_eq_ok.mp en
  rcases C49_mined_link_same_hash_iff em en with hi | hi
  · rcases hi.mp h with ⟨h1, h2⟩ | h1 | h1
    · rw [e] at bm; rw [e'] at bn
      rcases Link.alike_of_hash bm bn h1 with h3 | h3
      · exact .inl (.inl ⟨by rw [e, e']; exact h3, by rw [e, e']; exact h2⟩)
      · exact .inr (h3.mono (by rw [e]; simp [MinedLink.texts]) (by rw [e']; simp [MinedLink.texts]))
    · exact .inl (.inr (.inl ⟨by rw [e]; exact h1.1, by rw [← h1.2, e]⟩))
    · exact .inl (.inr (.inr ⟨by rw [e']; exact h1.1, by rw [← h1.2, e']⟩))
  · exact .inr (Clash.of hi (by rw [e]; simp [MinedLink.texts]) (by rw [e']; simp [MinedLink.texts]))

theorem MinedLink.Alike.hash {m n : MinedLink} (hm : m.Built) (hn : n.Built) (h : m.Alike n) :
    m.hash = n.hash := by
  have key : ∀ {m : MinedLink}, m.Built → m.hash = fromBytes (m.link.hash.bytes ++ m.mining) := by
    rintro m ⟨-, -, _, _, _, em⟩
    obtain ⟨_, rfl, rfl⟩ := minedLinkNow_eq_ok.mp em
    rfl
  rcases h with ⟨h1, h2⟩ | ⟨h1, h2⟩ | ⟨h1, h2⟩
  · rw [key hm, key hn, h1.hash hm.1 hn.1, h2]
  · rw [key hm, h1, List.append_nil, fromBytes_hash, h2]
  · rw [key hn, h1, List.append_nil, fromBytes_hash, h2]

omit [Sha512] C in
private theorem iff_or {p q r : Prop} (h : p → q ∨ r) (h' : q → p) : (p ↔ q) ∨ r := by
  by_cases hp : p
  · exact (h hp).imp (fun hq => iff_of_true hp hq) id
  · exact .inl (iff_of_false hp fun hq => hp (h' hq))

/-- C144, exactly when two chains have the same hash: when they are alike down to the keys of the locks of
every bill in them, or when two different texts hashed somewhere in them have the same SHA-512 value.
Missing: where `Alike` is less than being the same. -/
theorem C144_chain_same_hash_iff_partial {c d : Chain} (hc : c.Built) (hd : d.Built) :
    (c.hash = d.hash ↔ c.Alike d) ∨ Clash c.texts d.texts := by
  refine iff_or (fun h => ?_) fun h => ?_
  · obtain ⟨gc, rc, kc, _, _, _, _, _, ec⟩ := hc
    obtain ⟨gd, rd, kd, _, _, _, _, _, ed⟩ := hd
    rcases C45_chain_hash_binds _ _ _ _ _ _ _ _ _ _ _ _ ec ed h with ⟨h1, h2, h3, h4⟩ | h1
    · rcases Genesis.alike_of_hash gc gd h1 with h5 | h5
      · rcases MinedBlock.alike_of_hash rc rd h2 with h6 | h6
        · rcases MinedLink.alike_of_hash kc kd h3 with h7 | h7
          · exact .inl ⟨h5, h6, h7, h4⟩
          · refine .inr (h7.mono ?_ ?_) <;>
              (intro z hz; simp only [Chain.texts, List.mem_cons, List.mem_append]; tauto)
        · refine .inr (h6.mono ?_ ?_) <;>
            (intro z hz; simp only [Chain.texts, List.mem_cons, List.mem_append]; tauto)
      · exact .inr (h5.mono (by simp [Chain.texts]) (by simp [Chain.texts]))
    · exact .inr (Clash.of h1 (by simp [Chain.texts]) (by simp [Chain.texts]))
  · have key : ∀ {c : Chain}, c.Built → c.hash = fromBytes (c.genesis.hash.bytes ++
        (c.root.hash.bytes ++ (c.head.hash.bytes ++ itoaU c.total))) := by
      rintro c ⟨-, -, -, _, _, _, _, _, ec⟩
      obtain ⟨_, _, _, -, -, -, -, rfl⟩ := chainNow_eq_ok.mp ec
      rfl
    rw [key hc, key hd, h.1.hash hc.1 hd.1, h.2.1.hash hc.2.1 hd.2.1, h.2.2.1.hash hc.2.2.1 hd.2.2.1, h.2.2.2]

/-- C144, the same for every kind of object on the way. -/
theorem C144_every_kind_partial :
    (∀ {x y : Lock}, x.Built → y.Built → (x.hash = y.hash ↔ x.Alike y) ∨ Clash x.texts y.texts) ∧
    (∀ {x y : Bill}, x.Built → y.Built → (x.hash = y.hash ↔ x.Alike y) ∨ Clash x.texts y.texts) ∧
    (∀ {x y : Content}, x.Built → y.Built → (x.hash = y.hash ↔ x.Alike y) ∨ Clash x.texts y.texts) ∧
    (∀ {x y : Expense}, x.Built → y.Built → (x.hash = y.hash ↔ x.Alike y) ∨ Clash x.texts y.texts) ∧
    (∀ {x y : Genesis}, x.Built → y.Built → (x.hash = y.hash ↔ x.Alike y) ∨ Clash x.texts y.texts) ∧
    (∀ {x y : Address}, x.Built → y.Built → (x.hash = y.hash ↔ x.Alike y) ∨ Clash x.texts y.texts) ∧
    (∀ {x y : Transaction}, x.Built → y.Built → (x.hash = y.hash ↔ x.Alike y) ∨ Clash x.texts y.texts) ∧
    (∀ {x y : Block}, x.Built → y.Built → (x.hash = y.hash ↔ x.Alike y) ∨ Clash x.texts y.texts) ∧
    (∀ {x y : MinedBlock}, x.Built → y.Built → (x.hash = y.hash ↔ x.Alike y) ∨ Clash x.texts y.texts) ∧
    (∀ {x y : Link}, x.Built → y.Built → (x.hash = y.hash ↔ x.Alike y) ∨ Clash x.texts y.texts) ∧
    (∀ {x y : MinedLink}, x.Built → y.Built → (x.hash = y.hash ↔ x.Alike y) ∨ Clash x.texts y.texts) :=
  ⟨fun hx hy => iff_or (Lock.alike_of_hash hx hy) (Lock.Alike.hash hx hy),
   fun hx hy => iff_or (Bill.alike_of_hash hx hy) (Bill.Alike.hash hx hy),
   fun hx hy => iff_or (Content.alike_of_hash hx hy) (Content.Alike.hash hx hy),
   fun hx hy => iff_or (Expense.alike_of_hash hx hy) (Expense.Alike.hash hx hy),
   fun hx hy => iff_or (Genesis.alike_of_hash hx hy) (Genesis.Alike.hash hx hy),
   fun hx hy => iff_or (Address.alike_of_hash hx hy) (Address.Alike.hash hx hy),
   fun hx hy => iff_or (Transaction.alike_of_hash hx hy) (Transaction.Alike.hash hx hy),
   fun hx hy => iff_or (Block.alike_of_hash hx hy) (Block.Alike.hash hx hy),
   fun hx hy => iff_or (MinedBlock.alike_of_hash hx hy) (MinedBlock.Alike.hash hx hy),
   fun hx hy => iff_or (Link.alike_of_hash hx hy) (Link.Alike.hash hx hy),
   fun hx hy => iff_or (MinedLink.alike_of_hash hx hy) (MinedLink.Alike.hash hx hy)⟩

/-- The transactions of a block can be replaced by ones that only name the hashes of the former. -/
theorem block_without_fees {b : Block} (hb : b.Built) : ∃ b' : Block, b'.Built ∧ b'.hash = b.hash ∧
    b'.trx.map Transaction.hash = b.trx.map Transaction.hash ∧
    ∀ x ∈ b'.trx, x.address = none ∧ x.fees = [] := by
  obtain ⟨gb, -, _, _, _, _, eb⟩ := hb
  obtain ⟨g, xs, rfl, rfl, hne, e⟩ := blockNow_eq_ok.mp eb
  have ex : b.trx = xs := by rw [e]
  let f : Transaction → Transaction := fun x => ⟨x.hash, none, some x.hash, [], x.createdOn⟩
  have hf : ∀ x, (f x).Built := fun x => ⟨by simp [f], by simp [f], none, some x.hash, [], x.createdOn,
    trxNow_eq_ok.mpr ⟨by simp, by simp [f, hashesBytes, fromBytes_hash]⟩⟩
  have hm : (xs.map f).map Transaction.hash = xs.map Transaction.hash := by simp [f, Function.comp_def]
  refine ⟨⟨fromBytes (g.hash.bytes ++ (itoaU b.additional ++ hashesBytes ((xs.map f).map Transaction.hash))), g,
    b.additional, xs.map f, b.createdOn⟩, ⟨by rw [e] at gb; exact gb, ?_, some g, b.additional, some (xs.map f),
    b.createdOn, blockNow_eq_ok.mpr ⟨_, _, rfl, rfl, by simpa using hne, rfl⟩⟩, ?_, by rw [ex]; exact hm, ?_⟩
  · intro x hx
    obtain ⟨y, -, rfl⟩ := List.mem_map.mp hx
    exact hf y
  · simp only [hm]; rw [e]
  · intro x hx
    obtain ⟨y, -, rfl⟩ := List.mem_map.mp hx
    exact ⟨rfl, rfl⟩

/-- C144 fails for the transactions: for every chain there is a chain with the same hash, the same genesis,
root and total, the same hash of the head and the same mining text, in which the transactions of the head have
the same hashes but neither an address nor a fee. -/
theorem C144_transactions_replaced_neg {c : Chain} (hc : c.Built) :
    ∃ d : Chain, d.Built ∧ d.hash = c.hash ∧ d.genesis = c.genesis ∧ d.root = c.root ∧ d.total = c.total ∧
      d.head.hash = c.head.hash ∧ d.head.mining = c.head.mining ∧
      d.head.link.next.trx.map Transaction.hash = c.head.link.next.trx.map Transaction.hash ∧
      ∀ x ∈ d.head.link.next.trx, x.address = none ∧ x.fees = [] := by
  obtain ⟨gc, rc, ⟨⟨hb, _, _, _, _, el⟩, hu, _, _, _, em⟩, _, _, _, _, _, ec⟩ := hc
  obtain ⟨b', hb', h1, h2, h3⟩ := block_without_fees hb
  obtain ⟨p, b, rfl, rfl, el'⟩ := linkNow_eq_ok.mp el
  obtain ⟨l, rfl, em'⟩ := minedLinkNow_eq_ok.mp em
  obtain ⟨g, r, k, rfl, rfl, rfl, hn, ec'⟩ := chainNow_eq_ok.mp ec
  have hk : c.head = k := by rw [ec']
  have hl : c.head.link = l := by rw [em']
  have hbb : c.head.link.next = b := by rw [el']
  rw [hbb] at h1 h2 hb
  have hlen : b'.trx.length = b.trx.length := by simpa using congrArg List.length h2
  rw [← hk, hbb, ← hlen] at hn
  obtain ⟨l', hl', e1⟩ : ∃ l', l' = Link.mk (fromBytes (p.bytes ++ (b'.hash.bytes ++ itoaU l.index))) p b'
      l.index l.createdOn ∧ l'.hash = l.hash := ⟨_, rfl, by rw [← hl, el', h1]⟩
  obtain ⟨k', hk', e2⟩ : ∃ k', k' = MinedLink.mk (fromBytes (l'.hash.bytes ++ k.mining)) l' k.mining
      k.createdOn ∧ k'.hash = k.hash := ⟨_, rfl, by rw [← hk, em', e1]⟩
  refine ⟨⟨fromBytes (g.hash.bytes ++ (r.hash.bytes ++ (k'.hash.bytes ++ itoaU c.total))), g, r, k', c.total,
    c.createdOn⟩, ⟨by rw [ec'] at gc; exact gc, by rw [ec'] at rc; exact rc, ⟨⟨?_, some p, some b', l.index,
    l.createdOn, linkNow_eq_ok.mpr ⟨_, _, rfl, rfl, ?_⟩⟩, ?_, some l', k.mining, k.createdOn,
    minedLinkNow_eq_ok.mpr ⟨_, rfl, hk'⟩⟩, some g, some r, some k', c.total, c.createdOn,
    chainNow_eq_ok.mpr ⟨_, _, _, rfl, rfl, rfl, ?_, rfl⟩⟩, ?_, by rw [ec'], by rw [ec'], rfl, ?_, ?_, ?_, ?_⟩
  · simpa only [hk', hl'] using hb'
  · simp only [hk', hl']
  · simpa only [hk', hk] using hu
  · simp only [hk', hl']; rw [ec']; exact hn
  · simp only [e2]; rw [ec']
  · simp only [e2, hk]
  · simp only [hk', hk]
  · simp only [hk', hl', hbb]; exact h2
  · simpa only [hk', hl'] using h3

end

section examples

attribute [local instance] toyCurve toySha

/-- C144: a built chain, whose head has transactions. -/
theorem toyChain_built : ∃ c : Chain, c.Built ∧ c.head = toyMinedLink ∧ c.head.link.next.trx ≠ [] :=
  ⟨_, ⟨toyGenesis_built, ⟨toyBlock_built, utf8_of_ascii (b := [49]) (by decide), _, _, 0,
    minedBlockNow_eq_ok.mpr ⟨_, rfl, rfl⟩⟩, toyMinedLink_built, _, _, _, 4, 0,
    chainNow_eq_ok.mpr ⟨_, _, _, rfl, rfl, rfl, by decide, rfl⟩⟩, rfl, by simp [toyLink, toyBlock]⟩

/-- C144: two locks that are alike without having the same keys. -/
example : ∃ l m : Lock, l.Built ∧ m.Built ∧ l.Alike m ∧ l.pubKeys ≠ m.pubKeys := by
  obtain ⟨m, hm⟩ : ∃ m, lockNow (some [toyHash 1, toyHash 2]) 0 = .ok m :=
    ⟨_, lockNow_eq_ok.mpr ⟨_, rfl, by simp, by decide +kernel, rfl⟩⟩
  obtain ⟨l, hl⟩ : ∃ l, lockNow (some [m.hash]) 0 = .ok l :=
    ⟨_, lockNow_eq_ok.mpr ⟨_, rfl, by simp, by simp, rfl⟩⟩
  refine ⟨l, m, ⟨_, _, hl⟩, ⟨_, _, hm⟩, ?_, ?_⟩
  · obtain ⟨_, e, -, -, rfl⟩ := lockNow_eq_ok.mp hl
    cases e
    exact .inr (.inl rfl)
  · obtain ⟨_, e, -, -, rfl⟩ := lockNow_eq_ok.mp hl
    cases e
    obtain ⟨_, e, -, -, rfl⟩ := lockNow_eq_ok.mp hm
    cases e
    simp

end examples

end Verif
