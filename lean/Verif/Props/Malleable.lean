import Verif.Props.Binding
import Verif.Props.Committed
import Verif.Props.Exact
import Verif.Spec.Malleable

/-!
# Others can change the hash of a payment: C159
-/

namespace Verif

section
variable [C : Curve]

private theorem challengeAt_of_closes {ring : List C.Pt} {s : List Scalar} {e : Scalar} {msg : Bytes}
    {es : Nat → Scalar} (hl : ring.length ≤ s.length) (h0 : es 0 = e)
    (hstep : ∀ i (hr : i < ring.length) (hs : i < s.length),
      es (i + 1) = C.canon (C.hashF (msg ++
        hexEncode (C.enc (C.add (C.mul s[i] C.base) (C.mul (es i) ring[i])))))) :
    ∀ k, k ≤ ring.length → challengeAt msg ring s e k = es k
  | 0, _ => h0.symm
  | k + 1, hk => by
    rw [challengeAt, challengeAt_of_closes hl h0 hstep k (by omega),
      List.getElem?_eq_getElem (show k < ring.length by omega),
      List.getElem?_eq_getElem (show k < s.length by omega), hstep k (by omega) (by omega)]

/-- C159: the code checks the signatures with more scalars, or turned by any number of positions, like the
given one: if that is accepted, so are they. -/
theorem C159_changed_signatures_verify (sig : RingSignature) (msg : Bytes)
    (h : sig.verify msg = .ok true) :
    (∀ extra, (sig.padded extra).verify msg = .ok true) ∧
    ∀ k < sig.ring.length, (sig.turned msg k).verify msg = .ok true := by
  rw [C85_verify_iff_ring_closes] at h
  obtain ⟨hl, es, h0, hn, hstep⟩ := h
  constructor
  · intro extra
    rw [C85_verify_iff_ring_closes]
    refine ⟨by simp [RingSignature.padded]; omega, es, h0, hn, fun i hr hs => ?_⟩
    have hr' : i < sig.ring.length := hr
    have : (sig.padded extra).s[i] = sig.s[i] := by
      simp only [RingSignature.padded]
      rw [List.getElem_append_left]
    rw [this]
    exact hstep i hr' (by omega)
  · intro k hk
    rw [C85_verify_iff_ring_closes]
    have hc := challengeAt_of_closes hl h0 hstep
    have hpos : 0 < sig.ring.length := by omega
    refine ⟨by simp [RingSignature.turned]; omega, fun i => es ((i + k) % sig.ring.length), ?_, ?_, ?_⟩
    · simp only [RingSignature.turned, Nat.zero_add, Nat.mod_eq_of_lt hk]
      exact (hc k hk.le).symm
    · simp only [RingSignature.turned, List.length_rotate, Nat.add_mod_left, Nat.mod_eq_of_lt hk]
      exact (hc k hk.le).symm
    · intro i hr hs
      simp only [RingSignature.turned, List.length_rotate] at hr hs ⊢
      have hlt : (i + k) % sig.ring.length < sig.ring.length := Nat.mod_lt _ hpos
      have htake : (sig.s.take sig.ring.length).length = sig.ring.length := by simp; omega
      have e1 : es ((i + 1 + k) % sig.ring.length) = es ((i + k) % sig.ring.length + 1) := by
        rw [show i + 1 + k = i + k + 1 by omega, Nat.add_mod]
        rcases Nat.lt_or_ge ((i + k) % sig.ring.length + 1) sig.ring.length with hlt' | hge
        · have h1 : 1 % sig.ring.length = 1 := Nat.mod_eq_of_lt (by omega)
          rw [h1, Nat.mod_eq_of_lt hlt']
        · have e : (i + k) % sig.ring.length + 1 = sig.ring.length := by omega
          rw [e, hn]
          rcases Nat.lt_or_ge 1 sig.ring.length with h1 | h1
          · rw [Nat.mod_eq_of_lt h1, e, Nat.mod_self, h0]
          · have : sig.ring.length = 1 := by omega
            rw [this]
            simp [Nat.mod_one, h0]
      rw [e1, hstep _ hlt (by omega)]
      congr 7
      · rw [List.getElem_rotate, List.getElem_take]
        simp only [htake]
      · rw [List.getElem_rotate]

omit C in
private theorem canon_of_rotate {α : Type} {P : α → Prop} {l : List α} (h : ∀ x ∈ l, P x) (n k : Nat) :
    ∀ x ∈ (l.take n).rotate k, P x :=
  fun x hx => h x (List.mem_of_mem_take (List.mem_rotate.mp hx))

private theorem turned_canonical {sig : RingSignature} (h : sig.Canonical) (msg : Bytes) (k : Nat) :
    (sig.turned msg k).Canonical := by
  refine ⟨canon_of_rotate h.1 _ _, ?_⟩
  simp only [RingSignature.turned]
  cases k with
  | zero => exact h.2
  | succ k =>
    rw [challengeAt]
    split
    · exact ⟨_, rfl⟩
    · exact h.2

omit C in
private theorem forall₂_split {α β : Type} {R : α → β → Prop} : ∀ {pre post : List β} {l : List α},
    List.Forall₂ R l (pre ++ post) → ∃ a b, List.Forall₂ R a pre ∧ List.Forall₂ R b post ∧ l = a ++ b
  | [], post, l, h => ⟨[], l, .nil, h, rfl⟩
  | x :: pre, post, _, .cons hx h => by
    obtain ⟨a, b, h1, h2, rfl⟩ := forall₂_split h
    exact ⟨_ :: a, b, .cons hx h1, h2, rfl⟩

variable [Sha512]

private theorem padded_opens {l : Lock} {sig : RingSignature} (h : Opens l sig) (extra : List Scalar) :
    Opens l (sig.padded extra) :=
  ⟨(C85_verify_iff_ring_closes _ _).mp ((C159_changed_signatures_verify _ _
    ((C85_verify_iff_ring_closes _ _).mpr h.1)).1 extra), h.2⟩

private theorem turned_opens {l : Lock} {sig : RingSignature} (h : Opens l sig) {k : Nat}
    (hk : k < sig.ring.length) : Opens l (sig.turned l.hash.str k) := by
  refine ⟨(C85_verify_iff_ring_closes _ _).mp ((C159_changed_signatures_verify _ _
    ((C85_verify_iff_ring_closes _ _).mpr h.1)).2 k hk), fun x => (h.2 x).trans ?_⟩
  simp [RingSignature.turned, List.mem_rotate]

/-- One signature of an expense is replaced by another one that opens the same lock. -/
private theorem replace_signature {e : Expense} (he : e.Built) {pre post : List RingSignature}
    {sig sig' : RingSignature} (hs : e.signatures = pre ++ sig :: post)
    (h : ∀ b, e.content.source[pre.length]? = some b → Opens b.lock sig → Opens b.lock sig') :
    ∃ f : Expense, f.Built ∧ e.SamePayment f ∧ f.signatures = pre ++ sig' :: post ∧
      (sig'.reduced ≠ sig.reduced → f.hash ≠ e.hash ∨
        ShaCollision (e.content.hash.bytes ++ (e.signatures.map RingSignature.str).flatten)
          (f.content.hash.bytes ++ (f.signatures.map RingSignature.str).flatten)) := by
  have he' := he
  obtain ⟨hc, c, sigs, hnow⟩ := he'
  obtain ⟨c, sg, rfl, rfl, hf, rfl⟩ := expenseNow_eq_ok.mp hnow
  simp only at hs h hc
  subst hs
  obtain ⟨bs, bt, h1, h2, h3⟩ := forall₂_split hf
  rw [List.forall₂_cons_right_iff] at h2
  obtain ⟨b, bt, hb, h2, rfl⟩ := h2
  have hb' : b.lock.unlock sig' = .ok () := by
    rw [C20_unlock_exact] at hb ⊢
    refine h b ?_ hb
    rw [h3, ← h1.length_eq]
    simp
  have hnow' := (expenseNow_eq_ok (c := some c) (sigs := some (pre ++ sig' :: post))).mpr
    ⟨_, _, rfl, rfl, by
      rw [h3]
      exact List.rel_append h1 (.cons hb' h2), rfl⟩
  refine ⟨_, ⟨hc, _, _, hnow'⟩, ⟨rfl, rfl⟩, rfl, fun hne => ?_⟩
  rcases C74_same_hash_iff he ⟨hc, _, _, hnow'⟩ with hi | hi
  · left
    intro e
    have := (hi.mp e.symm).2
    simp only [List.map_append, List.map_cons] at this
    have := List.append_cancel_left this
    exact hne (List.cons.inj this).1.symm
  · exact .inr hi

/-- The expense with canonical signatures survives its JSON form. -/
private theorem canonical_survives {f : Expense} (hf : f.Built) (hc : f.Canonical) :
    expenseFromJSON (some f.toJSON) = .ok f := by
  rw [C29_expense_round_trip_exact f hf]
  have hr := Expense.reduced_of_canonical hc
  refine ⟨hr.symm, ?_⟩
  have : f.signatures.map RingSignature.reduced = f.signatures := congrArg Expense.signatures hr
  rw [this]
  obtain ⟨-, c, sigs, hnow⟩ := hf
  obtain ⟨c, sg, rfl, rfl, hf, rfl⟩ := expenseNow_eq_ok.mp hnow
  exact hf.imp fun b s h => (C20_unlock_exact _ _).mp h

omit [Sha512] in
private theorem canonical_replaced {pre post : List RingSignature} {sig sig' : RingSignature} {e f : Expense}
    (he : e.signatures = pre ++ sig :: post) (hf : f.signatures = pre ++ sig' :: post)
    (h : e.Canonical) (h' : sig.Canonical → sig'.Canonical) : f.Canonical := by
  intro s hs
  rw [hf] at hs
  simp only [List.mem_append, List.mem_cons] at hs
  rcases hs with hs | rfl | hs
  · exact h s (by rw [he]; simp [hs])
  · exact h' (h sig (by rw [he]; simp))
  · exact h s (by rw [he]; simp [hs])

/-- C159: the expectation fails. Everybody who sees an expense can put scalars behind those of any of its
signatures. The result is accepted and pays the same, under another hash; it also survives its JSON form when
all scalars are in reduced encoding. -/
theorem C159_extra_scalars_neg {e : Expense} (he : e.Built) {pre post : List RingSignature}
    {sig : RingSignature} (hs : e.signatures = pre ++ sig :: post) {extra : List Scalar} (hx : extra ≠ []) :
    ∃ f : Expense, f.Built ∧ e.SamePayment f ∧ f.signatures = pre ++ sig.padded extra :: post ∧
      (f.hash ≠ e.hash ∨
        ShaCollision (e.content.hash.bytes ++ (e.signatures.map RingSignature.str).flatten)
          (f.content.hash.bytes ++ (f.signatures.map RingSignature.str).flatten)) ∧
      (e.Canonical → (∀ x ∈ extra, ∃ a, x = C.canon a) → expenseFromJSON (some f.toJSON) = .ok f) := by
  obtain ⟨f, h1, h2, h3, h4⟩ := replace_signature he hs (sig' := sig.padded extra)
    fun b _ h => padded_opens h extra
  refine ⟨f, h1, h2, h3, h4 fun h => hx ?_, fun hc hxc => canonical_survives h1
    (canonical_replaced hs h3 hc fun h => ⟨fun x hx => ?_, h.2⟩)⟩
  · have := congrArg (fun s : RingSignature => s.s.length) h
    simpa [RingSignature.padded, RingSignature.reduced] using this
  · rcases List.mem_append.mp hx with hx | hx
    · exact h.1 x hx
    · exact hxc x hx

/-- C159: the expectation fails in a second way. Everybody who sees an expense can turn the ring of any of its
signatures, which begins with another challenge then. The result is accepted and pays the same, under another
hash; it also survives its JSON form when all scalars are in reduced encoding. -/
theorem C159_turned_ring_neg {e : Expense} (he : e.Built) {pre post : List RingSignature}
    {sig : RingSignature} (hs : e.signatures = pre ++ sig :: post) (hn : sig.ring.Nodup) {k : Nat}
    (h0 : 0 < k) (hk : k < sig.ring.length) :
    ∃ b ∈ e.content.source, ∃ f : Expense, f.Built ∧ e.SamePayment f ∧
      f.signatures = pre ++ sig.turned b.lock.hash.str k :: post ∧
      (f.hash ≠ e.hash ∨
        ShaCollision (e.content.hash.bytes ++ (e.signatures.map RingSignature.str).flatten)
          (f.content.hash.bytes ++ (f.signatures.map RingSignature.str).flatten)) ∧
      (e.Canonical → expenseFromJSON (some f.toJSON) = .ok f) := by
  obtain ⟨b, hb⟩ : ∃ b, e.content.source[pre.length]? = some b := by
    obtain ⟨-, c, sigs, hnow⟩ := he
    obtain ⟨c, sg, rfl, rfl, hf, rfl⟩ := expenseNow_eq_ok.mp hnow
    simp only at hs ⊢
    have := hf.length_eq
    rw [hs] at this
    exact ⟨_, List.getElem?_eq_getElem (by rw [this]; simp)⟩
  obtain ⟨f, h1, h2, h3, h4⟩ := replace_signature he hs (sig' := sig.turned b.lock.hash.str k)
    fun b' hb' h => by
      rw [hb] at hb'
      cases hb'
      exact turned_opens h hk
  refine ⟨b, List.mem_of_getElem? hb, f, h1, h2, h3, h4 fun h => ?_, fun hc => canonical_survives h1
    (canonical_replaced hs h3 hc fun h => turned_canonical h _ _)⟩
  have := congrArg RingSignature.ring h
  simp only [RingSignature.turned, RingSignature.reduced] at this
  have := (List.Nodup.rotate_congr_iff hn (i := k) (j := 0)).mp (by simpa using this)
  rcases this with h | h
  · rw [Nat.mod_eq_of_lt hk] at h
    simp at h
    omega
  · rw [h] at hk
    simp at hk

/-- C159: there is no end to it: every expense has as many accepted expenses that pay the same as there are
numbers, all with different hashes. -/
theorem C159_any_number_neg {e : Expense} (he : e.Built) :
    ∃ f : Nat → Expense, (∀ i, (f i).Built ∧ e.SamePayment (f i)) ∧ ∀ i j, i ≠ j →
      (f i).hash ≠ (f j).hash ∨
        ShaCollision ((f i).content.hash.bytes ++ ((f i).signatures.map RingSignature.str).flatten)
          ((f j).content.hash.bytes ++ ((f j).signatures.map RingSignature.str).flatten) := by
  obtain ⟨sig, post, hs⟩ : ∃ sig post, e.signatures = sig :: post := by
    obtain ⟨⟨a, src, l, rem, t, hc, -⟩, c, sigs, hnow⟩ := he
    obtain ⟨c, sg, rfl, rfl, hf, rfl⟩ := expenseNow_eq_ok.mp hnow
    obtain ⟨_, _, e, -, h1, h2, -, hcn⟩ := contentNow_eq_ok.mp hc
    cases e
    refine List.exists_cons_of_ne_nil ?_
    rintro rfl
    cases hf' : c.source with
    | nil =>
      have : src = [] := by rw [← hf']; exact (congrArg Content.source hcn).symm
      subst this
      simp [sourceTotal] at h2
      omega
    | cons x xs => rw [hf'] at hf; cases hf
  have key : ∀ i : Nat, ∃ f : Expense, f.Built ∧ e.SamePayment f ∧
      f.signatures = sig.padded (List.replicate i sig.e) :: post := by
    intro i
    obtain ⟨f, h1, h2, h3, -⟩ := replace_signature he (pre := []) hs
      (sig' := sig.padded (List.replicate i sig.e)) fun b _ h => padded_opens h _
    exact ⟨f, h1, h2, h3⟩
  choose f h1 h2 h3 using key
  refine ⟨f, fun i => ⟨h1 i, h2 i⟩, fun i j hij => ?_⟩
  rcases C74_same_hash_iff (h1 i) (h1 j) with hi | hi
  · left
    intro h
    have := (hi.mp h).2
    rw [h3, h3, List.map_cons, List.map_cons] at this
    have := congrArg (fun s : RingSignature => s.s.length) (List.cons.inj this).1
    simp [RingSignature.padded, RingSignature.reduced] at this
    exact hij this
  · exact .inr hi

/-- C159: the hash of a transaction changes with that of a fee. -/
theorem C159_transaction_changes_neg {x : Transaction} (hx : x.Built) {pre post : List Expense} {e f : Expense}
    (hf : x.fees = pre ++ e :: post) (hb : f.Built) (hh : f.hash ≠ e.hash) :
    ∃ y : Transaction, y.Built ∧ y.address = x.address ∧ y.bucket = x.bucket ∧ y.createdOn = x.createdOn ∧
      y.fees = pre ++ f :: post ∧ (y.hash ≠ x.hash ∨ ∃ a b, ShaCollision a b) := by
  obtain ⟨ha, hfe, a, b, fs, t, h⟩ := hx
  obtain ⟨hne, rfl⟩ := trxNow_eq_ok.mp h
  simp only at hf ha hfe
  subst hf
  have hnow := (trxNow_eq_ok (a := a) (b := b) (f := pre ++ f :: post) (t := t)).mpr ⟨by simp, rfl⟩
  refine ⟨_, ⟨ha, ?_, _, _, _, _, hnow⟩, rfl, rfl, rfl, rfl, ?_⟩
  · intro z hz
    simp only [List.mem_append, List.mem_cons] at hz
    rcases hz with hz | rfl | hz
    · exact hfe z (by simp [hz])
    · exact hb
    · exact hfe z (by simp [hz])
  · simp only
    generalize hA : (a.map Address.hash).toList ++ b.toList = A
    rcases fromHashes_iff (A ++ (pre ++ f :: post).map Expense.hash) (A ++ (pre ++ e :: post).map Expense.hash)
      with hi | hi
    · left
      intro h
      have h := hi.mp h
      have : A ++ (pre ++ f :: post).map Expense.hash = A ++ (pre ++ e :: post).map Expense.hash := by
        rcases h with h | h | h
        · exact h
        · have hl : (A ++ (pre ++ e :: post).map Expense.hash).length = 1 := by
            have := congrArg List.length h
            simpa using this
          obtain ⟨c, hc⟩ := List.length_eq_one_iff.mp hl
          rw [hc] at h ⊢
          simpa using h
        · have hl : (A ++ (pre ++ f :: post).map Expense.hash).length = 1 := by
            have := congrArg List.length h
            simpa using this
          obtain ⟨c, hc⟩ := List.length_eq_one_iff.mp hl
          rw [hc] at h ⊢
          simpa using h.symm
      have := List.append_cancel_left this
      simp only [List.map_append, List.map_cons] at this
      exact hh (List.cons.inj (List.append_cancel_left this)).1
    · exact .inr ⟨_, _, hi⟩

/-- C159, what holds: how the signatures are spelled in the JSON form does not matter. Two JSON forms of the
same content with texts that are read as the same signatures, up to the encoding of the scalars, are read as
expenses with the same hash. -/
theorem C159_spelling_partial {j₁ j₂ : JSONExpense} {e₁ e₂ : Expense} (hc : j₁.content = j₂.content)
    (h₁ : expenseFromJSON (some j₁) = .ok e₁) (h₂ : expenseFromJSON (some j₂) = .ok e₂)
    (hs : List.Forall₂ (fun t u => ∀ s s', toRingSignature t = .ok s → toRingSignature u = .ok s' →
      s.reduced = s'.reduced) j₁.signatures j₂.signatures) : e₁.hash = e₂.hash := by
  simp only [expenseFromJSON, Outcome.deref_some, Outcome.bind_ok, Outcome.bind_eq_ok] at h₁ h₂
  obtain ⟨c₁, a1, s₁, a2, a3⟩ := h₁
  obtain ⟨c₂, b1, s₂, b2, b3⟩ := h₂
  rw [hc, b1] at a1
  cases a1
  obtain ⟨_, _, e1, e2, -, rfl⟩ := expenseNow_eq_ok.mp a3
  cases e1
  cases e2
  obtain ⟨_, _, e1, e2, -, rfl⟩ := expenseNow_eq_ok.mp b3
  cases e1
  cases e2
  have : s₁.map RingSignature.reduced = s₂.map RingSignature.reduced := by
    rw [mapO_eq_ok] at a2 b2
    generalize j₁.signatures = t at *
    generalize j₂.signatures = u at *
    clear a3 b3 hc b1
    induction hs generalizing s₁ s₂ with
    | nil => cases a2; cases b2; rfl
    | cons h _ ih =>
      cases a2 with
      | cons x1 y1 =>
      cases b2 with
      | cons x2 y2 =>
      rw [List.map_cons, List.map_cons, h _ _ x1 x2, ih _ _ y1 y2]
  simp only
  rw [ringStrs_eq_iff.mpr this]

end

section examples
attribute [local instance] toyCurve toySha

/-- C159: an expense with a signature for a ring of two keys, all scalars in reduced encoding. -/
example : ∃ (e : Expense) (sig : RingSignature), e.Built ∧ e.signatures = [] ++ sig :: [] ∧ e.Canonical ∧
    sig.ring.Nodup ∧ sig.ring.length = 2 := by
  obtain ⟨l, sig, h1, h2, h3⟩ := C21_unlock_complete_partial [publicKey (toySc 1),
    publicKey (toySc 2)] (by decide) (toySc 2) (by decide) (by simp) 0
  have hc := C29_ring_sign_canonical _ _ _ _ h2
  obtain ⟨sig', g1, g2, -⟩ := ringSign_verifies (toySc 2) l.hash.str [publicKey (toySc 1),
    publicKey (toySc 2)] (by simp)
  rw [h2] at g1
  cases g1
  obtain ⟨e, he, hs⟩ := exists_expense ⟨_, _, h1⟩ h3
  refine ⟨e, sig, he, hs, ?_, by rw [g2]; decide, by rw [g2]; rfl⟩
  intro s hs'
  rw [hs, List.mem_singleton] at hs'
  rw [hs']
  exact hc

/-- C159: two texts of one signature: a line break in between. -/
example (sig : RingSignature) : ∀ s s', toRingSignature sig.str = .ok s →
    toRingSignature (10 :: sig.str) = .ok s' → s.reduced = s'.reduced := by
  intro s s' h h'
  have : toRingSignature (10 :: sig.str) = toRingSignature sig.str := by
    unfold toRingSignature b64Decode
    simp
  rw [this, h] at h'
  cases h'
  rfl

end examples

end Verif
