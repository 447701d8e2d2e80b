import Verif.Spec.Panics
import Verif.Props.Sig
import Verif.Props.Turmoil

/-!
# Which files bring the process down: C145
-/

namespace Verif

/-! ## Outcomes that are not panics -/

/-- Not a panic. -/
def Outcome.Calm {α : Type} (o : Outcome α) : Prop := ∀ c, o ≠ .crash c

namespace Outcome.Calm
variable {α β : Type}

theorem ok (a : α) : (Outcome.ok a).Calm := fun _ h => by cases h

theorem err (m : String) : (Outcome.err m : Outcome α).Calm := fun _ h => by cases h

theorem bind {o : Outcome α} {f : α → Outcome β} (h : o.Calm) (hf : ∀ a, o = .ok a → (f a).Calm) :
    (o >>= f).Calm := by
  cases o with
  | ok a => exact hf a rfl
  | err m => exact .err m
  | crash c => exact absurd rfl (h c)

theorem mapO {f : α → Outcome β} : ∀ {l : List α}, (∀ x ∈ l, (f x).Calm) → (Verif.mapO f l).Calm
  | [], _ => .ok _
  | x :: xs, h => by
    have h1 := h x (by simp)
    have h2 := Calm.mapO (f := f) (l := xs) fun y hy => h y (by simp [hy])
    unfold Verif.mapO
    cases hx : f x with
    | ok y =>
      cases hs : Verif.mapO f xs with
      | ok ys => exact .ok _
      | err m => exact .err m
      | crash c => exact absurd hs (h2 c)
    | err m => exact .err m
    | crash c => exact absurd hx (h1 c)

end Outcome.Calm

theorem mapO_eq_crash {α β : Type} {f : α → Outcome β} {c : Crash} : ∀ {l : List α},
    mapO f l = .crash c ↔
      ∃ pre x post, l = pre ++ x :: post ∧ (∀ y ∈ pre, ∃ z, f y = .ok z) ∧ f x = .crash c
  | [] => by simp [mapO]
  | a :: l => by
    have ih := mapO_eq_crash (f := f) (c := c) (l := l)
    unfold mapO
    constructor
    · intro h
      cases ha : f a with
      | ok b =>
        rw [ha] at h
        cases hl : mapO f l with
        | ok bs => rw [hl] at h; cases h
        | err m => rw [hl] at h; cases h
        | crash d =>
          rw [hl] at h
          cases h
          obtain ⟨pre, x, post, rfl, h1, h2⟩ := ih.mp hl
          refine ⟨a :: pre, x, post, rfl, ?_, h2⟩
          intro y hy
          rcases List.mem_cons.mp hy with rfl | hy
          · exact ⟨b, ha⟩
          · exact h1 y hy
      | err m => rw [ha] at h; cases h
      | crash d =>
        rw [ha] at h
        cases h
        exact ⟨[], a, l, rfl, by simp, ha⟩
    · rintro ⟨pre, x, post, he, h1, h2⟩
      cases pre with
      | nil =>
        obtain ⟨rfl, rfl⟩ := List.cons.inj he
        rw [h2]
      | cons b pre =>
        obtain ⟨rfl, rfl⟩ := List.cons.inj he
        obtain ⟨z, hz⟩ := h1 a (by simp)
        rw [hz, ih.mpr ⟨pre, x, post, rfl, fun y hy => h1 y (by simp [hy]), h2⟩]

theorem bind_eq_crash {α β : Type} {o : Outcome α} {f : α → Outcome β} {c : Crash} :
    (o >>= f) = .crash c ↔ o = .crash c ∨ ∃ a, o = .ok a ∧ f a = .crash c := by
  cases o with
  | ok a => simp
  | err m => simp
  | crash d => simp

/-! ## Trees -/

section
variable [Sha512]

/-- Reads the texts of leaves. -/
def readText : Option Bytes → Outcome Hash
  | none => .crash .nilDeref
  | some x => fromString x

/-- Only whether it went well. -/
def Outcome.void {α : Type} : Outcome α → Outcome Unit
  | .ok _ => .ok ()
  | .err m => .err m
  | .crash c => .crash c

omit [Sha512] in
theorem Outcome.void_crash {α : Type} {o : Outcome α} {c : Crash} :
    o.void = .crash c ↔ o = .crash c := by
  cases o <;> simp [Outcome.void]

omit [Sha512] in
theorem void_mapO_append {α β : Type} {f : α → Outcome β} : ∀ {a b : List α},
    (mapO f (a ++ b)).void = (mapO f a).void >>= fun _ => (mapO f b).void
  | [], b => rfl
  | x :: a, b => by
    have ih := void_mapO_append (f := f) (a := a) (b := b)
    simp only [List.cons_append, mapO]
    cases f x with
    | ok y =>
      cases ha : mapO f a with
      | ok z =>
        rw [ha] at ih
        cases hb : mapO f (a ++ b) with
        | ok w => rw [hb] at ih; exact ih
        | err m => rw [hb] at ih; exact ih
        | crash c => rw [hb] at ih; exact ih
      | err m =>
        rw [ha] at ih
        cases hb : mapO f (a ++ b) with
        | ok w => rw [hb] at ih; exact ih
        | err m => rw [hb] at ih; exact ih
        | crash c => rw [hb] at ih; exact ih
      | crash m =>
        rw [ha] at ih
        cases hb : mapO f (a ++ b) with
        | ok w => rw [hb] at ih; exact ih
        | err m => rw [hb] at ih; exact ih
        | crash c => rw [hb] at ih; exact ih
    | err m => rfl
    | crash c => rfl

theorem leafFromJSON_void : ∀ l : JLeaf, (leafFromJSON l).void = (mapO readText l.texts).void
  | .null => rfl
  | .atom h => by
    simp only [leafFromJSON, JLeaf.texts, mapO, readText]
    cases fromString h <;> rfl
  | .node h l r => by
    have hl := leafFromJSON_void l
    have hr := leafFromJSON_void r
    have ha := void_mapO_append (f := readText) (a := l.texts) (b := r.texts)
    rw [← hl, ← hr] at ha
    simp only [leafFromJSON, JLeaf.texts, mapO, readText]
    cases fromString h with
    | ok k =>
      clear hl hr
      generalize mapO readText (l.texts ++ r.texts) = m at ha
      generalize leafFromJSON l = a at ha
      generalize leafFromJSON r = b at ha
      cases a <;> cases b <;> cases m <;> simp_all [Outcome.void]
    | err m => rfl
    | crash c => rfl

theorem leaves_void : ∀ ls : List JLeaf,
    (mapO leafFromJSON ls).void = (mapO readText (ls.flatMap JLeaf.texts)).void
  | [] => rfl
  | l :: ls => by
    have ih := leaves_void ls
    have hl := leafFromJSON_void l
    rw [List.flatMap_cons, void_mapO_append, ← hl, ← ih]
    simp only [mapO]
    cases leafFromJSON l with
    | ok y => cases mapO leafFromJSON ls <;> rfl
    | err m => rfl
    | crash c => rfl

theorem leaves_crash {t : JCompact} {c : Crash} :
    mapO leafFromJSON t.leaves = .crash c ↔ c = .nilDeref ∧ t.Gap := by
  rw [← Outcome.void_crash, leaves_void, Outcome.void_crash, mapO_eq_crash]
  constructor
  · rintro ⟨pre, x, post, he, h1, h2⟩
    cases x with
    | some x => exact absurd h2 (fromString_not_crash x c)
    | none =>
      refine ⟨by cases h2; rfl, ?_⟩
      have : ∃ pre' : List Bytes, pre = pre'.map some ∧ ∀ x ∈ pre', ∃ h, fromString x = .ok h := by
        clear he
        induction pre with
        | nil => exact ⟨[], rfl, by simp⟩
        | cons a pre ih =>
          obtain ⟨p, rfl, hp⟩ := ih fun y hy => h1 y (by simp [hy])
          obtain ⟨z, hz⟩ := h1 a (by simp)
          cases a with
          | none => cases hz
          | some a =>
            refine ⟨a :: p, rfl, ?_⟩
            intro x hx
            rcases List.mem_cons.mp hx with rfl | hx
            · exact ⟨z, hz⟩
            · exact hp x hx
      obtain ⟨p, rfl, hp⟩ := this
      exact ⟨p, post, he, hp⟩
  · rintro ⟨rfl, pre, post, he, h1⟩
    refine ⟨pre.map some, none, post, he, ?_, rfl⟩
    intro y hy
    obtain ⟨x, hx, rfl⟩ := List.mem_map.mp hy
    exact h1 x hx

theorem leafFromJSON_tips : ∀ {j : JLeaf} {l : Leaf}, leafFromJSON j = .ok l →
    List.Forall₂ (fun s x => fromString s = .ok x.head) j.tips l.leaves
  | .null, _, h => by cases h
  | .atom x, l, h => by
    unfold leafFromJSON at h
    cases hx : fromString x with
    | ok k => rw [hx] at h; cases h; exact .cons hx .nil
    | err m => rw [hx] at h; cases h
    | crash c => rw [hx] at h; cases h
  | .node x a b, l, h => by
    unfold leafFromJSON at h
    cases hx : fromString x with
    | ok k =>
      cases ha : leafFromJSON a with
      | ok a' =>
        cases hb : leafFromJSON b with
        | ok b' =>
          rw [hx, ha, hb] at h
          cases h
          exact List.rel_append (leafFromJSON_tips ha) (leafFromJSON_tips hb)
        | err m => rw [hx, ha, hb] at h; cases h
        | crash c => rw [hx, ha, hb] at h; cases h
      | err m => rw [hx, ha] at h; cases h
      | crash c => rw [hx, ha] at h; cases h
    | err m => rw [hx] at h; cases h
    | crash c => rw [hx] at h; cases h

theorem leaves_tips {js : List JLeaf} {ls : List Leaf} (h : mapO leafFromJSON js = .ok ls) :
    List.Forall₂ (fun s x => fromString s = .ok x.head) (js.flatMap JLeaf.tips)
      (ls.flatMap Leaf.leaves) := by
  replace h := mapO_eq_ok.mp h
  induction h with
  | nil => exact .nil
  | cons h _ ih => exact List.rel_append (leafFromJSON_tips h) ih

/-- Leaves form a tree exactly when their number is 2, 4, 8, ..., and the tree keeps them. -/
theorem leavesHashTree_cases (l : List Leaf) :
    ((∃ k, l.length = 2 ^ (k + 1)) ∧ ∃ t, leavesHashTree l = .ok t ∧
      t.blockLeaves = l.flatMap Leaf.leaves) ∨
    (¬ (∃ k, l.length = 2 ^ (k + 1)) ∧
      leavesHashTree l = .crash (if l.length = 0 then .stackOverflow else .indexOutOfRange)) := by
  by_cases h : ∃ k, l.length = 2 ^ (k + 1)
  · left
    refine ⟨h, ?_⟩
    obtain ⟨k, hk⟩ := h
    have := Nat.lt_two_pow_self (n := k + 1)
    obtain ⟨a, b, h1, h2⟩ := leavesHashTreeN_any k (l.length + 1) l hk (by omega)
    exact ⟨_, h1, h2⟩
  · right
    refine ⟨h, ?_⟩
    by_cases h0 : l.length = 0
    · rw [if_pos h0]
      obtain rfl := List.length_eq_zero_iff.mp h0
      exact leavesHashTreeN_nil _
    · rw [if_neg h0]
      exact leavesHashTreeN_not_pow l.length _ l rfl (by omega) (by omega) h

theorem leaves_ok {t : JCompact} : (∃ ls, mapO leafFromJSON t.leaves = .ok ls) ↔ t.Whole := by
  have hv : ∀ {α : Type} {o : Outcome α}, (∃ a, o = .ok a) ↔ o.void = .ok () := by
    intro α o
    cases o <;> simp [Outcome.void]
  rw [hv, leaves_void, ← hv]
  unfold JCompact.Whole
  generalize t.leaves.flatMap JLeaf.texts = l
  constructor
  · rintro ⟨hs, h⟩ x hx
    obtain ⟨y, -, hy⟩ := mapO_mem_left h x hx
    cases x with
    | none => cases hy
    | some s => exact ⟨s, y, rfl, hy⟩
  · intro h
    induction l with
    | nil => exact ⟨[], rfl⟩
    | cons x l ih =>
      obtain ⟨s, k, rfl, hk⟩ := h x (by simp)
      obtain ⟨ks, hks⟩ := ih fun y hy => h y (by simp [hy])
      exact ⟨k :: ks, by simp [mapO, readText, hk, hks]⟩

theorem compact_crash {t : JCompact} {c : Crash} :
    (compactFromJSON t >>= fun x => leavesHashTree x.leaves) = .crash c ↔
      (∃ h, fromString t.head = .ok h) ∧ t.Breaks c := by
  cases hh : fromString t.head with
  | err m => simp [compactFromJSON, hh]
  | crash d => exact absurd hh (fromString_not_crash _ _)
  | ok k =>
    simp only [compactFromJSON, hh, Outcome.bind_ok, Outcome.ok.injEq, exists_eq', true_and]
    cases hl : mapO leafFromJSON t.leaves with
    | err m =>
      simp only [Outcome.bind_err, reduceCtorEq, false_iff]
      intro h
      cases h with
      | gap h => rw [(leaves_crash (c := .nilDeref)).mpr ⟨rfl, h⟩] at hl; cases hl
      | empty h => rw [h] at hl; cases hl
      | odd h _ _ =>
        obtain ⟨ls, h⟩ := leaves_ok.mpr h
        rw [h] at hl
        cases hl
    | crash d =>
      obtain ⟨rfl, hg⟩ := leaves_crash.mp hl
      simp only [Outcome.bind_crash, Outcome.crash.injEq]
      constructor
      · rintro rfl
        exact .gap hg
      · intro h
        cases h with
        | gap h => rfl
        | empty h => rw [h] at hl; cases hl
        | odd h _ _ =>
          obtain ⟨ls, h⟩ := leaves_ok.mpr h
          rw [h] at hl
          cases hl
    | ok ls =>
      have hlen : ls.length = t.leaves.length := mapO_length hl
      simp only [Outcome.bind_ok]
      show leavesHashTree ls = .crash c ↔ _
      rcases leavesHashTree_cases ls with ⟨hp, x, hx, -⟩ | ⟨hp, hx⟩
      · rw [hx]
        simp only [reduceCtorEq, false_iff]
        intro h
        rw [hlen] at hp
        cases h with
        | gap h => rw [(leaves_crash (c := .nilDeref)).mpr ⟨rfl, h⟩] at hl; cases hl
        | empty h =>
          obtain ⟨k, hk⟩ := hp
          rw [h] at hk
          exact absurd hk.symm (Nat.pos_iff_ne_zero.mp (Nat.pos_of_ne_zero (by simp)))
        | odd _ _ h => exact h hp
      · rw [hx, hlen]
        rw [hlen] at hp
        simp only [Outcome.crash.injEq]
        by_cases h0 : t.leaves.length = 0
        · rw [if_pos h0]
          constructor
          · rintro rfl
            exact .empty (List.length_eq_zero_iff.mp h0)
          · intro h
            cases h with
            | gap h => rw [(leaves_crash (c := .nilDeref)).mpr ⟨rfl, h⟩] at hl; cases hl
            | empty h => rfl
            | odd _ h _ => exact absurd (List.length_eq_zero_iff.mp h0) h
        · rw [if_neg h0]
          constructor
          · rintro rfl
            exact .odd (leaves_ok.mp ⟨ls, hl⟩) (fun h => h0 (by simp [h])) hp
          · intro h
            cases h with
            | gap h => rw [(leaves_crash (c := .nilDeref)).mpr ⟨rfl, h⟩] at hl; cases hl
            | empty h => exact absurd (by simp [h]) h0
            | odd _ _ _ => rfl

theorem compact_ok {t : JCompact} {x : HashTree}
    (h : (compactFromJSON t >>= fun x => leavesHashTree x.leaves) = .ok x) :
    (∃ h, fromString t.head = .ok h) ∧ t.Whole ∧ (∃ k, t.leaves.length = 2 ^ (k + 1)) ∧
      List.Forall₂ (fun s x => fromString s = .ok x.head) t.tips x.blockLeaves := by
  obtain ⟨y, h1, h2⟩ := Outcome.bind_eq_ok.mp h
  obtain ⟨k, hk, h1⟩ := Outcome.bind_eq_ok.mp h1
  obtain ⟨ls, hl, h1⟩ := Outcome.bind_eq_ok.mp h1
  cases h1
  have hlen : ls.length = t.leaves.length := mapO_length hl
  rcases leavesHashTree_cases ls with ⟨hp, z, hz, he⟩ | ⟨hp, hx⟩
  · obtain rfl : z = x := Outcome.ok.inj (hz.symm.trans h2)
    refine ⟨⟨k, hk⟩, leaves_ok.mp ⟨ls, hl⟩, hlen ▸ hp, ?_⟩
    rw [he]
    exact leaves_tips hl
  · rw [show leavesHashTree _ = _ from hx] at h2
    cases h2

theorem compact_of {t : JCompact} {k : Hash} (hk : fromString t.head = .ok k) (hw : t.Whole)
    (hp : ∃ k, t.leaves.length = 2 ^ (k + 1)) :
    ∃ x, (compactFromJSON t >>= fun x => leavesHashTree x.leaves) = .ok x := by
  obtain ⟨ls, hl⟩ := leaves_ok.mpr hw
  have hlen : ls.length = t.leaves.length := mapO_length hl
  simp only [compactFromJSON, hk, hl, Outcome.bind_ok]
  rcases leavesHashTree_cases ls with ⟨-, z, hz, -⟩ | ⟨hp', -⟩
  · exact ⟨z, hz⟩
  · exact absurd (hlen ▸ hp) hp'

omit [Sha512] in
theorem toInt_takenOf (a : UInt64) : (toInt a).toNat = takenOf a := by
  unfold takenOf
  by_cases h : a.toNat < 2 ^ 63
  · rw [if_pos h, toInt_of_lt h]; simp
  · rw [if_neg h]
    have := toInt_of_ge (d := a) (by omega)
    omega

/-- Trees that meet the condition can be rebuilt. -/
theorem JCompact.Sturdy.not_breaks {t : JCompact} {a : UInt64} (h : t.Sturdy a) {c : Crash} :
    ¬ t.Breaks c := by
  intro hb
  cases hb with
  | gap hg =>
    obtain ⟨pre, post, he, -⟩ := hg
    have : none ∈ t.leaves.flatMap JLeaf.texts := by rw [he]; simp
    obtain ⟨l, hl, hn⟩ := List.mem_flatMap.mp this
    exact h.whole l hl hn
  | empty he =>
    obtain ⟨k, hk⟩ := h.power
    rw [he] at hk
    exact absurd hk.symm (Nat.pos_iff_ne_zero.mp (Nat.pos_of_ne_zero (by simp)))
  | odd _ _ hp => exact hp h.power

/-! ## Reading without panics -/

/-- The retrieval does not panic, whatever contents of the right kind it reads. -/
def Rd.Calm {α : Type} [C : Curve] : Rd α → Prop
  | .ret o => o.Calm
  | .ask n k => ∀ a, n.Sturdy a → (k a).Calm

variable [C : Curve]

namespace Rd.Calm
variable {α β : Type}

omit [Sha512] in
theorem bind {r : Rd α} {f : α → Rd β} (h : r.Calm) (hf : ∀ a, (f a).Calm) : (r.bind f).Calm := by
  induction r with
  | ret o =>
    cases o with
    | ok a => exact hf a
    | err m => exact Outcome.Calm.err m
    | crash c => exact absurd rfl (h c)
  | ask n k ih => exact fun a ha => ih a (h a ha)

omit [Sha512] in
theorem retBind {o : Outcome α} {f : α → Rd β} (h : o.Calm) (hf : ∀ a, o = .ok a → (f a).Calm) :
    ((Rd.ret o).bind f).Calm := by
  cases o with
  | ok a => exact hf a rfl
  | err m => exact Outcome.Calm.err m
  | crash c => exact absurd rfl (h c)

omit [Sha512] in
theorem fileBind {n : Spot} {f : n.Content → Rd β} (hf : ∀ a, n.Sturdy a → (f a).Calm) :
    ((Rd.file n).bind f).Calm := hf

omit [Sha512] in
theorem all {γ : Type} {f : γ → Rd β} (h : ∀ x, (f x).Calm) : ∀ l : List γ, (Rd.all f l).Calm
  | [] => Outcome.Calm.ok _
  | x :: xs => (h x).bind fun _ => (all h xs).bind fun _ => Outcome.Calm.ok _

omit [Sha512] in
theorem opt {γ : Type} {f : γ → Rd β} (h : ∀ x, (f x).Calm) : ∀ l : Option γ, (Rd.opt f l).Calm
  | none => Outcome.Calm.ok _
  | some x => (h x).bind fun _ => Outcome.Calm.ok _

end Rd.Calm

omit C in
theorem fromString_calm (s : Bytes) : (fromString s).Calm := fromString_not_crash s

omit C in
theorem optFromString_calm (s : Bytes) : (optFromString s).Calm := by
  unfold optFromString optO
  split
  · exact .ok _
  · cases h : fromString _ with
    | ok k => exact .ok _
    | err m => exact .err m
    | crash c => exact absurd h (fromString_not_crash _ _)

omit C in
theorem lockNow_calm {k : Option (List Hash)} {t : Time} : (lockNow k t).Calm :=
  fun _ => lockNow_not_crash

omit C in
theorem billNow_calm {k : Option Lock} {a : UInt64} {t : Time} : (billNow k a t).Calm :=
  fun _ => billNow_not_crash

omit C in
theorem contentNow_calm {a : UInt64} {s : Option (List Bill)} {l r : Option Lock} {t : Time} :
    (contentNow a s l r t).Calm := by
  unfold contentNow
  cases s with
  | none => exact .err _
  | some s =>
    cases l with
    | none => exact .err _
    | some l =>
      dsimp only
      split
      · exact .err _
      · split
        · exact .err _
        · split
          · exact .err _
          · cases hb : billNow (some l) a t with
            | err m => exact .err m
            | crash c => exact absurd hb billNow_not_crash
            | ok d =>
              cases r with
              | none => exact .ok _
              | some r =>
                dsimp only
                cases hc : billNow (some r) (sourceTotal s - a) t with
                | err m => exact .err m
                | crash c => exact absurd hc billNow_not_crash
                | ok d => exact .ok _

theorem readLock_calm (h : Hash) : (readLock h).Calm :=
  .fileBind fun _ _ => .retBind
    ((fromString_calm _).bind fun _ _ => (Outcome.Calm.mapO fun _ _ => fromString_calm _).bind
      fun _ _ => .ok _) fun _ _ => lockNow_calm

theorem readBill_calm (h : Hash) : (readBill h).Calm :=
  .fileBind fun _ _ => .retBind
    ((fromString_calm _).bind fun _ _ => (fromString_calm _).bind fun _ _ => by
      unfold trBillNow
      split
      · exact .err _
      · exact .ok _) fun _ _ => (readLock_calm _).bind fun _ => billNow_calm

theorem readGenesis_calm : readGenesis.Calm :=
  .fileBind fun _ _ => .retBind
    ((fromString_calm _).bind fun _ _ => (fromString_calm _).bind fun _ _ => by
      unfold trGenesisNow
      split
      · exact .err _
      · split
        · exact .err _
        · split
          · exact .err _
          · exact .ok _) fun _ _ => (readBill_calm _).bind fun b => by
    show Outcome.Calm _
    unfold genesisNow
    split
    · exact .err _
    · split
      · exact .err _
      · split
        · exact .err _
        · exact .ok _

/-- When `Unlock` panics. -/
theorem unlock_crash {l : Lock} {sig : RingSignature} {c : Crash} : l.unlock sig = .crash c ↔
    c = .indexOutOfRange ∧ (∀ h, h ∈ l.pubKeys ↔ ∃ p ∈ sig.ring, ringKey p = h) ∧
      sig.s.length < sig.ring.length := by
  have hmp : l.mpKeys.Nodup := List.nodup_dedup _
  have hv := (C17_verify_panics_iff sig l.hash.str).2
  constructor
  · intro h
    unfold Lock.unlock at h
    split at h
    · cases h
    · rename_i hr
      exact absurd hr unlockLoop_not_crash
    · rename_i r hr
      obtain ⟨a1, a2, a3, a4⟩ := unlockLoop_eq_ok (by simp) (by simp) hr
      split at h
      · cases h
      · rename_i hl
        rw [not_not] at hl
        have hperm : ∀ k, k ∈ r ↔ k ∈ l.mpKeys := by
          have hsub : r.Subperm l.mpKeys := List.Nodup.subperm a2 a3
          have : r.Perm l.mpKeys := hsub.perm_of_length_le (by omega)
          exact fun k => this.mem_iff
        have hc : c = .indexOutOfRange ∧ sig.s.length < sig.ring.length := by
          split at h
          · rename_i d hd
            cases h
            by_cases hle : sig.ring.length ≤ sig.s.length
            · obtain ⟨b, hb⟩ := (C17_verify_panics_iff sig l.hash.str).1.mpr hle
              rw [hb] at hd
              cases hd
            · have hlt : sig.s.length < sig.ring.length := by omega
              rw [hv.mpr hlt] at hd
              exact ⟨by cases hd; rfl, hlt⟩
          · cases h
          · cases h
          · cases h
        refine ⟨hc.1, fun k => ?_, hc.2⟩
        rw [← mem_mapKeys (l := l.pubKeys) (h := k)]
        change k.str ∈ l.mpKeys ↔ _
        rw [← hperm, a4]
        simp [Hash.str_injective.eq_iff]
  · rintro ⟨rfl, h, hlt⟩
    have hin : ∀ p ∈ sig.ring, (ringKey p).str ∈ l.mpKeys := by
      intro p hp
      exact mem_mapKeys.mpr ((h _).mpr ⟨p, hp, rfl⟩)
    obtain ⟨r, hr⟩ := unlockLoop_ok_of (acc := []) hin
    obtain ⟨a1, a2, a3, a4⟩ := unlockLoop_eq_ok (by simp) (by simp) hr
    have hlen : r.length = l.mpKeys.length := by
      apply List.Perm.length_eq
      rw [List.perm_ext_iff_of_nodup a2 hmp]
      intro k
      refine ⟨a3 k, fun hk => ?_⟩
      have hk' : ∃ x ∈ l.pubKeys, x.str = k := by
        simpa [Lock.mpKeys, mapKeys] using hk
      obtain ⟨x, hx, rfl⟩ := hk'
      obtain ⟨p, hp, rfl⟩ := (h x).mp hx
      exact (a4 _).mpr (.inr ⟨p, hp, rfl⟩)
    unfold Lock.unlock
    rw [hr]
    simp only [hlen, ne_eq, not_true_eq_false, if_false, hv.mpr hlt]

theorem unlock_calm {l : Lock} {sig : RingSignature} (h : sig.ring.length ≤ sig.s.length) :
    (l.unlock sig).Calm := by
  intro c hc
  have := (unlock_crash.mp hc).2.2
  omega

theorem unlockAll_calm : ∀ {bs : List Bill} {sigs : List RingSignature}, sigs.length = bs.length →
    (∀ s ∈ sigs, s.ring.length ≤ s.s.length) → (unlockAll bs sigs).Calm
  | [], _, _, _ => .ok _
  | b :: bs, [], h, _ => by simp at h
  | b :: bs, s :: ss, h, hs => by
    have ih := unlockAll_calm (bs := bs) (sigs := ss) (by simpa using h)
      fun x hx => hs x (by simp [hx])
    unfold unlockAll
    cases hu : b.lock.unlock s with
    | ok u => exact ih
    | err m => exact .err m
    | crash c => exact absurd hu (unlock_calm (hs s (by simp)) c)

theorem expenseNow_calm {cn : Option Content} {sigs : List RingSignature}
    (hs : ∀ s ∈ sigs, s.ring.length ≤ s.s.length) : (expenseNow cn (some sigs)).Calm := by
  unfold expenseNow
  cases cn with
  | none => exact .err _
  | some cn =>
    dsimp only
    split
    · exact .err _
    · rename_i hl
      have := unlockAll_calm (bs := cn.source) (sigs := sigs) (by simpa using hl) hs
      cases hu : unlockAll cn.source sigs with
      | ok u => exact .ok _
      | err m => exact .err m
      | crash c => exact absurd hu (this c)

theorem trExpenseFromJSON_calm (js : JTrExpense) : (trExpenseFromJSON js).Calm :=
  (fromString_calm _).bind fun _ _ => (Outcome.Calm.mapO fun _ _ => fromString_calm _).bind
    fun _ _ => (fromString_calm _).bind fun _ _ =>
    (Outcome.Calm.mapO fun _ _ => C17_parsing_total _).bind fun _ _ =>
    (optFromString_calm _).bind fun _ _ => by
      unfold trExpenseNow
      split
      · exact .err _
      · split
        · exact .err _
        · exact .ok _

theorem trExpense_signatures {js : JTrExpense} {tr : TrExpense}
    (h : trExpenseFromJSON js = .ok tr) : mapO toRingSignature js.signatures = .ok tr.signatures := by
  obtain ⟨_, -, h⟩ := Outcome.bind_eq_ok.mp h
  obtain ⟨_, -, h⟩ := Outcome.bind_eq_ok.mp h
  obtain ⟨_, -, h⟩ := Outcome.bind_eq_ok.mp h
  obtain ⟨sigs, hs, h⟩ := Outcome.bind_eq_ok.mp h
  obtain ⟨_, -, h⟩ := Outcome.bind_eq_ok.mp h
  obtain ⟨-, -, rfl⟩ := trExpenseNow_eq_ok.mp h
  exact hs

theorem readExpense_calm (h : Hash) : (readExpense h).Calm :=
  .fileBind fun js hjs => .retBind (trExpenseFromJSON_calm js) fun tr htr =>
    (Rd.Calm.all readBill_calm _).bind fun _ => (readBill_calm _).bind fun _ =>
    (Rd.Calm.opt readBill_calm _).bind fun _ => .retBind contentNow_calm fun _ _ => by
      refine expenseNow_calm fun s hs => ?_
      obtain ⟨x, hx, hsx⟩ := mapO_mem_right (trExpense_signatures htr) s hs
      exact hjs x hx s hsx

theorem readTrx_calm (h : Hash) : (readTrx h).Calm :=
  .fileBind fun _ _ => .retBind
    ((fromString_calm _).bind fun _ _ => (Outcome.Calm.mapO fun _ _ => fromString_calm _).bind
      fun _ _ => (optFromString_calm _).bind fun _ _ => (optFromString_calm _).bind fun _ _ => by
      unfold trTransactionNow
      split
      · exact .err _
      · exact .ok _) fun _ _ => (Rd.Calm.all readExpense_calm _).bind fun _ => by
    show Outcome.Calm _
    unfold trxNow
    dsimp only
    split
    · exact .err _
    · exact .ok _

omit C in
/-- Reading a block: the tree, then the rest. -/
theorem trBlockFromJSON_eq (js : JTrBlock) : trBlockFromJSON js =
    fromString js.hash >>= fun h => Outcome.deref js.trx >>= fun t =>
      (compactFromJSON t >>= fun x => leavesHashTree x.leaves) >>= fun x =>
      trBlockNow h x js.amount js.additional js.createdOn := by
  unfold trBlockFromJSON
  congr 1
  funext h
  congr 1
  funext t
  cases compactFromJSON t <;> rfl

omit C in
theorem trStateFromJSON_eq (js : JTrState) : trStateFromJSON js =
    fromString js.hash >>= fun h => fromString js.chain >>= fun c => fromString js.prev >>= fun p =>
      Outcome.deref js.trx >>= fun t =>
      (compactFromJSON t >>= fun x => leavesHashTree x.leaves) >>= fun x =>
      trStateNow h (some c) p js.height x js.amount js.createdOn := by
  unfold trStateFromJSON
  congr 1
  funext h
  congr 1
  funext c
  congr 1
  funext p
  congr 1
  funext t
  cases compactFromJSON t <;> rfl

omit C in
theorem compact_calm {t : JCompact} {a : UInt64} (h : t.Sturdy a) :
    (compactFromJSON t >>= fun x => leavesHashTree x.leaves).Calm := by
  intro c hc
  exact h.not_breaks (compact_crash.mp hc).2

omit C in
theorem takeLeaves_calm {t : JCompact} {a : UInt64} (h : t.Sturdy a) {x : HashTree}
    (hx : (compactFromJSON t >>= fun x => leavesHashTree x.leaves) = .ok x) :
    (takeLeaves x.blockLeaves a).Calm := by
  have := (compact_ok hx).2.2.2.length_eq
  unfold takeLeaves
  rw [if_pos]
  · exact .ok _
  · rw [toInt_takenOf, ← this]
    exact h.enough

theorem readBlock_calm (h : Hash) : (readBlock h).Calm := by
  refine .fileBind fun js hjs => ?_
  obtain ⟨js, rfl⟩ : ∃ x : JTrBlock, x = js := ⟨js, rfl⟩
  obtain ⟨t, ht, hs⟩ := hjs
  refine .retBind ?_ fun tr htr => readGenesis_calm.bind fun g => .retBind ?_ fun hashes _ =>
    (Rd.Calm.all readTrx_calm _).bind fun trx => ?_
  · rw [trBlockFromJSON_eq, ht]
    refine (fromString_calm _).bind fun _ _ => (Outcome.Calm.ok t).bind fun t' ht' => ?_
    cases ht'
    refine (compact_calm hs).bind fun _ _ => ?_
    unfold trBlockNow
    split
    · exact .err _
    · exact .ok _
  · rw [trBlockFromJSON_eq, ht] at htr
    obtain ⟨_, -, htr⟩ := Outcome.bind_eq_ok.mp htr
    obtain ⟨_, he, htr⟩ := Outcome.bind_eq_ok.mp htr
    cases he
    obtain ⟨x, hx, htr⟩ := Outcome.bind_eq_ok.mp htr
    obtain ⟨-, rfl⟩ := trBlockNow_eq_ok.mp htr
    exact takeLeaves_calm hs hx
  · show Outcome.Calm _
    unfold blockNow
    dsimp only
    split
    · exact .err _
    · exact .ok _

theorem readState_calm (c : Hash) (n : UInt64) : (readState c n).Calm := by
  refine .fileBind fun js hjs => ?_
  obtain ⟨js, rfl⟩ : ∃ x : JTrState, x = js := ⟨js, rfl⟩
  obtain ⟨t, ht, hs⟩ := hjs
  refine .retBind ?_ fun tr htr => .retBind ?_ fun hashes _ =>
    (Rd.Calm.all readTrx_calm _).bind fun trx => ?_
  · rw [trStateFromJSON_eq, ht]
    refine (fromString_calm _).bind fun _ _ => (fromString_calm _).bind fun _ _ =>
      (fromString_calm _).bind fun _ _ => (Outcome.Calm.ok t).bind fun t' ht' => ?_
    cases ht'
    refine (compact_calm hs).bind fun _ _ => ?_
    unfold trStateNow
    split
    · exact .err _
    · split
      · exact .err _
      · exact .ok _
  · rw [trStateFromJSON_eq, ht] at htr
    obtain ⟨_, -, htr⟩ := Outcome.bind_eq_ok.mp htr
    obtain ⟨_, -, htr⟩ := Outcome.bind_eq_ok.mp htr
    obtain ⟨_, -, htr⟩ := Outcome.bind_eq_ok.mp htr
    obtain ⟨_, he, htr⟩ := Outcome.bind_eq_ok.mp htr
    cases he
    obtain ⟨x, hx, htr⟩ := Outcome.bind_eq_ok.mp htr
    unfold trStateNow at htr
    split at htr
    · cases htr
    · split at htr
      · cases htr
      · cases htr
        exact takeLeaves_calm hs hx
  · show Outcome.Calm _
    unfold stateNow
    dsimp only
    split
    · exact .err _
    · split
      · exact .err _
      · exact .ok _

omit C in
theorem trMinedFromJSON_calm (js : JTrMined) : (trMinedFromJSON js).Calm :=
  (fromString_calm _).bind fun _ _ => (fromString_calm _).bind fun _ _ => .ok _

theorem readMinedBlock_calm (h : Hash) : (readMinedBlock h).Calm :=
  .fileBind fun _ _ => .retBind (trMinedFromJSON_calm _) fun _ _ =>
    (readBlock_calm _).bind fun _ => Outcome.Calm.ok _

theorem readLink_calm (h : Hash) : (readLink h).Calm :=
  .fileBind fun _ _ => .retBind ((fromString_calm _).bind fun _ _ => (fromString_calm _).bind
    fun _ _ => (fromString_calm _).bind fun _ _ => .ok _) fun _ _ =>
    (readBlock_calm _).bind fun _ => Outcome.Calm.ok _

theorem readMinedLink_calm (h : Hash) : (readMinedLink h).Calm :=
  .fileBind fun _ _ => .retBind (trMinedFromJSON_calm _) fun _ _ =>
    (readLink_calm _).bind fun _ => Outcome.Calm.ok _

theorem readChain_calm : readChain.Calm := by
  refine .fileBind fun _ _ => .retBind ?_ fun _ _ => readGenesis_calm.bind fun _ =>
    .retBind ?_ fun _ _ => (readMinedBlock_calm _).bind fun _ => (readMinedLink_calm _).bind
      fun _ => ?_
  · refine (fromString_calm _).bind fun _ _ => (fromString_calm _).bind fun _ _ =>
      (fromString_calm _).bind fun _ _ => (fromString_calm _).bind fun _ _ => ?_
    unfold trChainNow
    split
    · exact .err _
    · exact .ok _
  · unfold Outcome.guardNot
    split
    · exact .err _
    · exact .ok _
  · show Outcome.Calm _
    unfold chainNow
    dsimp only
    split
    · exact .err _
    · exact .ok _

theorem Query.reads_calm : ∀ q : Query, q.reads.Calm
  | .lock h => readLock_calm h
  | .bill h => readBill_calm h
  | .expense h => readExpense_calm h
  | .genesis => readGenesis_calm
  | .trx h => readTrx_calm h
  | .block h => readBlock_calm h
  | .minedBlock h => readMinedBlock_calm h
  | .link h => readLink_calm h
  | .minedLink h => readMinedLink_calm h
  | .chain => readChain_calm
  | .state c n => readState_calm c n

omit [Sha512] in
theorem Rd.Calm.after {α : Type} {n : Spot} {k : n.Content → Rd α} (h : (Rd.ask n k).Calm)
    {σ : Store} (H : σ.Sturdy) : (Rd.after n k (σ.file n)).Calm := by
  unfold Rd.after
  cases hc : readCell (σ.file n) with
  | ok a => exact h a (H n a (readCell_eq_ok.mp hc))
  | err m => exact Outcome.Calm.err m
  | crash x => exact absurd hc (readCell_no_crash _ _)

omit [Sha512] in
theorem Rd.Calm.run {α : Type} {r : Rd α} (h : r.Calm) {σ : Store} (H : σ.Sturdy) :
    (r.run σ).Calm := by
  induction r with
  | ret o => exact h
  | ask n k ih =>
    unfold Rd.run
    cases hc : readCell (σ.file n) with
    | ok a => exact ih a (h a (H n a (readCell_eq_ok.mp hc)))
    | err m => exact .err m
    | crash x => exact absurd hc (readCell_no_crash _ _)

/-! ## Saving -/

/-- The program does not panic, and writes only contents of the right kind. -/
def Proc.Calm {α : Type} : Proc α → Prop
  | .ret o => o.Calm
  | .query _ k => ∀ o, o.Calm → (k o).Calm
  | .write d t k => (∀ σ : Store, σ.Sturdy → (d σ).Sturdy ∧ (t σ).Sturdy) ∧ ∀ b, (k b).Calm

namespace Proc.Calm
variable {α β : Type}

omit [Sha512] in
theorem bind {p : Proc α} {f : α → Proc β} (h : p.Calm) (hf : ∀ a, (f a).Calm) :
    (p.bind f).Calm := by
  induction p with
  | ret o => cases o with
    | ok a => exact hf a
    | err m => exact Outcome.Calm.err m
    | crash c => exact absurd rfl (h c)
  | query q k ih => exact fun o ho => ih o (h o ho)
  | write d t k ih => exact ⟨h.1, fun b => ih b (h.2 b)⟩

omit [Sha512] in
theorem ret {o : Outcome α} {f : α → Proc β} (ho : o.Calm) (h : ∀ a, o = .ok a → (f a).Calm) :
    ((Proc.ret o).bind f).Calm := by
  cases o with
  | ok a => exact h a rfl
  | err m => exact Outcome.Calm.err m
  | crash c => exact absurd rfl (ho c)

omit [Sha512] in
theorem forEach {γ : Type} {f : γ → Proc Unit} : ∀ {xs : List γ}, (∀ x ∈ xs, (f x).Calm) →
    (Proc.forEach f xs).Calm
  | [], _ => Outcome.Calm.ok _
  | x :: xs, h => (h x (by simp)).bind fun _ => forEach fun y hy => h y (by simp [hy])

omit [Sha512] in
theorem unlessFound {q : Query} {rest : Proc Unit} (h : rest.Calm) :
    (Proc.unlessFound q rest).Calm := by
  intro o ho
  cases o with
  | ok a => exact Outcome.Calm.ok _
  | err m => exact h
  | crash c => exact absurd rfl (ho c)

omit [Sha512] in
theorem save {d t : Store → Store} (h : ∀ σ : Store, σ.Sturdy → (d σ).Sturdy ∧ (t σ).Sturdy) :
    (Proc.save d t).Calm := by
  refine ⟨h, fun b => ?_⟩
  cases b
  · exact Outcome.Calm.err _
  · exact Outcome.Calm.ok _

end Proc.Calm

omit [Sha512] in
theorem Store.Sturdy.put {σ : Store} (H : σ.Sturdy) {n : Spot} {c : Option (Cell n.Content)}
    (h : ∀ a, c = some (.json a) → n.Sturdy a) : (σ.put n c).Sturdy := by
  intro m a hm
  by_cases e : m = n
  · subst e
    rw [Store.put_same] at hm
    exact h a hm
  · rw [Store.put_ne _ _ e] at hm
    exact H m a hm

omit [Sha512] in
/-- A write to one file. -/
theorem Store.Sturdy.write {σ : Store} (H : σ.Sturdy) {n : Spot} {js : n.Content}
    (h : n.Sturdy js) :
    (σ.put n (some (.json js))).Sturdy ∧ (σ.put n (some .torn)).Sturdy :=
  ⟨H.put fun a ha => by cases ha; exact h, H.put fun a ha => by cases ha⟩

omit [Sha512] in
theorem Store.Sturdy.empty : Store.empty.Sturdy := by
  intro n a h
  cases n <;> cases h

omit [Sha512] in
theorem procLock_calm (x : Lock) : (procLock x).Calm :=
  .unlessFound (.ret (.ok _) fun tr _ => .save fun _ H =>
    H.write (n := .lock tr.hash.str) (js := tr.toJSON) trivial)

omit [Sha512] in
theorem procBill_calm (x : Bill) : (procBill x).Calm := by
  refine .unlessFound (.bind (procLock_calm _) fun _ => .ret ?_ fun tr _ => .save fun _ H =>
    H.write (n := .bill tr.hash.str) (js := tr.toJSON) trivial)
  unfold Bill.toTransfer trBillNow
  split
  · exact .err _
  · exact .ok _

omit [Sha512] in
theorem procGenesis_calm (x : Genesis) : (procGenesis x).Calm := by
  intro o ho
  cases o with
  | ok a => exact Outcome.Calm.err _
  | crash c => exact absurd rfl (ho c)
  | err m =>
    refine .bind (procBill_calm _) fun _ => .ret ?_ fun tr _ => .ret ?_ fun js _ => .save fun _ H =>
      H.write (n := .genesis) (js := js) trivial
    · unfold Genesis.toTransfer trGenesisNow
      split
      · exact .err _
      · split
        · exact .err _
        · split
          · exact .err _
          · exact .ok _
    · unfold TrGenesis.toJSON
      split
      · exact .ok _
      · exact .err _

theorem expense_rings {x : Expense} (hx : x.Built) {s : RingSignature} (hs : s ∈ x.signatures) :
    s.ring.length ≤ s.s.length := by
  obtain ⟨-, c, sigs, h⟩ := hx
  obtain ⟨cn, sg, -, -, hu, rfl⟩ := expenseNow_eq_ok.mp h
  have : ∃ b : Bill, b.lock.unlock s = .ok () := by
    clear h
    dsimp only at hs
    generalize cn.source = bs at hu
    induction hu with
    | nil => cases hs
    | cons h _ ih =>
      rcases List.mem_cons.mp hs with rfl | hs
      · exact ⟨_, h⟩
      · exact ih hs
  obtain ⟨b, hb⟩ := this
  exact (C17_verify_panics_iff s _).1.mp ⟨true, (unlock_eq_ok.mp hb).2⟩

theorem procExpense_calm {x : Expense} (hx : x.Built) : (procExpense x).Calm := by
  refine .unlessFound (.bind (.forEach fun b _ => procBill_calm b) fun _ =>
    .bind (procBill_calm _) fun _ => .bind (.forEach fun b _ => procBill_calm b) fun _ =>
    .ret ?_ fun tr htr => .save fun _ H =>
      H.write (n := .expense tr.hash.str) (js := tr.toJSON) ?_)
  · unfold Expense.toTransfer trExpenseNow
    split
    · exact .err _
    · split
      · exact .err _
      · exact .ok _
  · obtain ⟨-, -, rfl⟩ := trExpenseNow_eq_ok.mp htr
    intro text ht sig hsig
    obtain ⟨s, hs, rfl⟩ := List.mem_map.mp ht
    rw [toRingSignature_str] at hsig
    cases hsig
    simpa using expense_rings hx hs

theorem procTrx_calm {x : Transaction} (hx : x.Built) : (procTrx x).Calm := by
  refine .unlessFound (.bind (.forEach fun f hf => procExpense_calm (hx.2.1 f hf)) fun _ =>
    .ret ?_ fun tr _ => .save fun _ H =>
      H.write (n := .trx tr.hash.str) (js := tr.toJSON) trivial)
  unfold Transaction.toTransfer trTransactionNow
  split
  · exact .err _
  · exact .ok _

omit [Sha512] C in
theorem Leaf.toJSON_texts : ∀ l : Leaf, none ∉ l.toJSON.texts
  | .atom h => by simp [Leaf.toJSON, JLeaf.texts]
  | .node h l r => by
    simp [Leaf.toJSON, JLeaf.texts, Leaf.toJSON_texts l, Leaf.toJSON_texts r]

omit C in
/-- Trees that are written can be rebuilt. -/
theorem tree_sturdy {blocks : List Bytes} {t : HashTree} (h : hashTreeFromBlocks blocks = .ok t)
    {a : UInt64} (ha : takenOf a ≤ blocks.length) : t.compact.toJSON.Sturdy a := by
  obtain ⟨k, m, t', _, _, h1, -, -, -, h2, h3, -⟩ :=
    hashTreeFromBlocks_spec _ (hashTreeFromBlocks_ne_nil h)
  obtain rfl : t = t' := Outcome.ok.inj (h.symm.trans h1)
  have hlen : t.blockLeaves.length = 2 ^ (k + 1) := by rw [h2]; simpa using h3
  refine ⟨?_, ⟨k, by simpa [HashTree.compact, Compact.toJSON] using hlen⟩, ?_⟩
  · intro l hl
    obtain ⟨x, -, rfl⟩ := List.mem_map.mp hl
    exact Leaf.toJSON_texts x
  · have : t.compact.toJSON.tips.length = t.blockLeaves.length := by
      unfold JCompact.tips HashTree.compact Compact.toJSON
      rw [h2]
      generalize blocks.map fromBytes ++ List.replicate m (fromBytes []) = l
      induction l with
      | nil => rfl
      | cons x xs ih =>
        simp only [List.map_cons, List.flatMap_cons, List.length_append, List.length_cons, ih]
        simp [Leaf.toJSON, JLeaf.tips, Nat.add_comm]
    rw [this, hlen, ← h3]
    omega

omit [Sha512] C in
theorem takenOf_ofNat_le (n : Nat) : takenOf (UInt64.ofNat n) ≤ n := by
  unfold takenOf
  split
  · rw [UInt64.toNat_ofNat']
    exact Nat.mod_le _ _
  · exact Nat.zero_le _

theorem procBlock_calm {x : Block} (hx : x.Built) : (procBlock x).Calm := by
  have hne : (x.trx.map fun y => y.hash.bytes) ≠ [] := by
    obtain ⟨-, -, g, a, y, t, h⟩ := hx
    unfold blockNow at h
    split at h
    · cases h
    · split at h
      · cases h
      · split at h
        · cases h
        · rename_i hl
          cases h
          intro he
          have := congrArg List.length he
          simp at this
          simp [this] at hl
  obtain ⟨_, _, t, _, _, ht, -⟩ := hashTreeFromBlocks_spec _ hne
  refine .unlessFound (.bind (.forEach fun y hy => procTrx_calm (hx.2.1 y hy)) fun _ =>
    .ret ?_ fun tr htr => .save fun _ H =>
      H.write (n := .block tr.hash.str) (js := tr.toJSON) ?_)
  · refine Outcome.Calm.bind ?_ fun _ _ => ?_
    · intro c hc
      exact absurd (hc.symm.trans ht) (by simp)
    · unfold trBlockNow
      split
      · exact .err _
      · exact .ok _
  · obtain ⟨t', ht', h⟩ := Outcome.bind_eq_ok.mp htr
    obtain ⟨-, rfl⟩ := trBlockNow_eq_ok.mp h
    refine ⟨_, rfl, tree_sturdy ht' ?_⟩
    rw [List.length_map]
    exact takenOf_ofNat_le x.trx.length

theorem procMinedBlock_calm {x : MinedBlock} (hx : x.Built) : (procMinedBlock x).Calm :=
  .unlessFound (.bind (procBlock_calm hx.1) fun _ => .ret (.ok _) fun tr _ => .save fun _ H =>
    H.write (n := .minedBlock tr.hash.str) (js := tr.toJSON) trivial)

theorem procLink_calm {x : Link} (hx : x.Built) : (procLink x).Calm :=
  .unlessFound (.bind (procBlock_calm hx.1) fun _ => .ret (.ok _) fun tr _ => .save fun _ H =>
    H.write (n := .link tr.hash.str) (js := tr.toJSON) trivial)

theorem procMinedLink_calm {x : MinedLink} (hx : x.Built) : (procMinedLink x).Calm :=
  .unlessFound (.bind (procLink_calm hx.1) fun _ => .ret (.ok _) fun tr _ => .save fun _ H =>
    H.write (n := .minedLink tr.hash.str) (js := tr.toJSON) trivial)

theorem procChain_calm {x : Chain} (hx : x.head.Built) : (procChain x).Calm := by
  refine .bind (procMinedLink_calm hx) fun _ => .ret ?_ fun tr _ => .save fun _ H =>
    H.write (n := .chain) (js := tr.toJSON) trivial
  unfold Chain.toTransfer trChainNow
  split
  · exact .err _
  · exact .ok _

theorem procState_calm {s : State} (hs : s.Built) : (procState s).Calm := by
  have hne : (s.trx.map fun y => y.hash.bytes) ≠ [] := by
    obtain ⟨c, p, n, x, t, h⟩ := hs
    unfold stateNow at h
    split at h
    · cases h
    · split at h
      · cases h
      · split at h
        · cases h
        · split at h
          · cases h
          · split at h
            · cases h
            · rename_i hl
              cases h
              intro he
              have := congrArg List.length he
              simp at this
              simp [this] at hl
  obtain ⟨_, _, t, _, _, ht, -⟩ := hashTreeFromBlocks_spec _ hne
  have herr : ∃ m, s.toTransfer = .err m := by
    have ht : hashTreeBuilderNow (some (s.trx.map fun y => y.hash.bytes)) none = .ok t := ht
    unfold State.toTransfer
    simp only [ht, Outcome.bind_ok, trStateNow]
    split
    · exact ⟨_, rfl⟩
    · exact ⟨_, rfl⟩
  obtain ⟨m, hm⟩ := herr
  intro o ho
  dsimp only
  rw [hm]
  cases o with
  | ok a =>
    dsimp only
    split
    · exact Outcome.Calm.ok _
    · exact Outcome.Calm.err _
  | err m => exact Outcome.Calm.err _
  | crash c => exact absurd rfl (ho c)

omit [Sha512] C in
theorem guardNot_calm {b : Bool} {m : String} : (Outcome.guardNot b m).Calm := by
  unfold Outcome.guardNot
  split
  · exact .err _
  · exact .ok _

theorem Op.proc_calm {op : Op} (h : op.Built) : op.proc.Calm := by
  cases op with
  | lock x => exact procLock_calm x
  | bill x => exact procBill_calm x
  | expense x => exact procExpense_calm h
  | genesis x => exact procGenesis_calm x
  | trx x => exact procTrx_calm h
  | block x => exact procBlock_calm h
  | minedBlock x => exact procMinedBlock_calm h
  | link x => exact procLink_calm h
  | minedLink x => exact procMinedLink_calm h
  | insert c => exact .unlessFound (.bind (procGenesis_calm _) fun _ =>
      .bind (procMinedBlock_calm h.2.1) fun _ => procChain_calm h.2.2)
  | update a b => exact .ret guardNot_calm fun _ _ => .ret guardNot_calm fun _ _ => procChain_calm h
  | state s => exact procState_calm h

/-! ## Calls -/

/-- The call does not panic. -/
def Call.Calm : Call → Prop
  | .next p => p.Calm
  | .reading _ r k => r.Calm ∧ ∀ o, o.Calm → (k o).Calm
  | .writing d t k => (∀ σ : Store, σ.Sturdy → (d σ).Sturdy ∧ (t σ).Sturdy) ∧ ∀ b, (k b).Calm

theorem Call.Fair.calm {c : Call} (h : c.Fair) : c.Calm := by
  cases h with
  | save op h => exact Op.proc_calm h
  | find q f h => exact fun o ho => h o ho

theorem Call.Calm.step {c c' : Call} {σ σ' : Store} (h : c.Calm) (H : σ.Sturdy)
    (hs : c.Step σ c' σ') : σ'.Sturdy ∧ c'.Calm := by
  cases hs with
  | begins q k => exact ⟨H, Query.reads_calm q, h⟩
  | reads q n r k => exact ⟨H, h.1.after H, h.2⟩
  | ends q o k => exact ⟨H, h.2 o h.1⟩
  | opens d t k => exact ⟨(h.1 σ H).2, h⟩
  | writes d t k => exact ⟨(h.1 σ H).1, h.2 true⟩
  | mixes d t k => exact ⟨(h.1 σ H).2, h.2 true⟩

omit [Sha512] in
theorem Call.Calm.fault {c c' : Call} {σ σ' : Store} (h : c.Calm) (H : σ.Sturdy)
    (hs : c.Fault σ c' σ') : σ'.Sturdy ∧ c'.Calm := by
  cases hs with
  | refused d t k => exact ⟨H, h.2 false⟩
  | nothing d t k => exact ⟨H, h.2 false⟩
  | part d t k => exact ⟨(h.1 σ H).2, h.2 false⟩
  | whole d t k => exact ⟨(h.1 σ H).1, h.2 false⟩

theorem Beset.calm {cs cs' : List Call} {σ σ' : Store} (h : Beset cs σ cs' σ') (H : σ.Sturdy)
    (hc : ∀ c ∈ cs, c.Calm) : σ'.Sturdy ∧ ∀ c ∈ cs', c.Calm := by
  induction h with
  | refl => exact ⟨H, hc⟩
  | step _ hs ih =>
    obtain ⟨H1, hc1⟩ := ih H
    obtain ⟨H2, h2⟩ := (hc1 _ (by simp)).step H1 hs
    refine ⟨H2, fun c hc => ?_⟩
    rcases List.mem_append.mp hc with hc | hc
    · exact hc1 c (by simp [hc])
    · rcases List.mem_cons.mp hc with rfl | hc
      · exact h2
      · exact hc1 c (by simp [hc])
  | fault _ hs ih =>
    obtain ⟨H1, hc1⟩ := ih H
    obtain ⟨H2, h2⟩ := (hc1 _ (by simp)).fault H1 hs
    refine ⟨H2, fun c hc => ?_⟩
    rcases List.mem_append.mp hc with hc | hc
    · exact hc1 c (by simp [hc])
    · rcases List.mem_cons.mp hc with rfl | hc
      · exact h2
      · exact hc1 c (by simp [hc])

theorem Proc.Calm.run {α : Type} {p : Proc α} (h : p.Calm) {σ σ' : Store}
    {r : Option (Outcome α)} (H : σ.Sturdy) (hr : Run p.prog σ r σ') :
    σ'.Sturdy ∧ ∀ c, r ≠ some (.crash c) := by
  induction p generalizing σ with
  | ret o =>
    cases hr with
    | ret => exact ⟨H, fun c hc => h c (Option.some.inj hc)⟩
    | killed => exact ⟨H, by simp⟩
  | query q k ih =>
    cases hr with
    | killed => exact ⟨H, by simp⟩
    | look hr => exact ih _ (h _ ((Query.reads_calm q).run H)) H hr
  | write d t k ih =>
    cases hr with
    | killed => exact ⟨H, by simp⟩
    | written hr => exact ih _ (h.2 true) (h.1 σ H).1 hr
    | failed hr => exact ih _ (h.2 false) H hr
    | tornWrite hr => exact ih _ (h.2 false) (h.1 σ H).2 hr

/-! ## C145 -/

/-- C145: whatever is in the files, retrieving a lock, a bill or the genesis does not panic. -/
theorem C145_locks_bills_genesis_never (σ : Store) (c : Crash) :
    (∀ h, retrLock σ h ≠ .crash c) ∧ (∀ h, retrBill σ h ≠ .crash c) ∧
      retrGenesis σ ≠ .crash c := by
  have H : Store.Sturdy { Store.empty with
      locks := σ.locks, bills := σ.bills, genesis := σ.genesis } := by
    intro n a h
    cases n with
    | lock p => trivial
    | bill p => trivial
    | genesis => trivial
    | _ => cases h
  refine ⟨fun h => ?_, fun h => ?_, ?_⟩
  · have := (readLock_calm h).run H c
    rwa [run_readLock] at this
  · have := (readBill_calm h).run H c
    rwa [run_readBill] at this
  · have := readGenesis_calm.run H c
    rwa [run_readGenesis] at this

/-- C145: when every complete file of an expense has signatures with a scalar for every ring member,
and every complete file of a block or state a tree that can be rebuilt and is large enough, no
retrieval panics, however much else of the files is missing, torn or wrong. -/
theorem C145_sturdy_files_never_panic {σ : Store} (H : σ.Sturdy) (c : Crash) :
    (∀ h, retrLock σ h ≠ .crash c) ∧ (∀ h, retrBill σ h ≠ .crash c) ∧
    retrGenesis σ ≠ .crash c ∧ (∀ h, retrExpense σ h ≠ .crash c) ∧
    (∀ h, retrTrx σ h ≠ .crash c) ∧ (∀ h, retrBlock σ h ≠ .crash c) ∧
    (∀ h, retrMinedBlock σ h ≠ .crash c) ∧ (∀ h, retrLink σ h ≠ .crash c) ∧
    (∀ h, retrMinedLink σ h ≠ .crash c) ∧ retrChain σ ≠ .crash c ∧
    ∀ h n, retrState σ h n ≠ .crash c := by
  simp only [← run_readLock, ← run_readBill, ← run_readGenesis, ← run_readExpense, ← run_readTrx,
    ← run_readBlock, ← run_readMinedBlock, ← run_readLink, ← run_readMinedLink, ← run_readChain,
    ← run_readState]
  exact ⟨fun h => (readLock_calm h).run H c, fun h => (readBill_calm h).run H c,
    readGenesis_calm.run H c, fun h => (readExpense_calm h).run H c,
    fun h => (readTrx_calm h).run H c, fun h => (readBlock_calm h).run H c,
    fun h => (readMinedBlock_calm h).run H c, fun h => (readLink_calm h).run H c,
    fun h => (readMinedLink_calm h).run H c, readChain_calm.run H c,
    fun h n => (readState_calm h n).run H c⟩

/-- C145: a service that is handed a built object does not panic on such a store, and leaves such a
store behind, also when writes fail or the process is killed. -/
theorem C145_saving_never_panics {σ σ' : Store} (H : σ.Sturdy) {op : Op} (hop : op.Built)
    {r : Option (Outcome Unit)} (h : Run op.prog σ r σ') :
    σ'.Sturdy ∧ ∀ c, r ≠ some (.crash c) := by
  rw [← Op.proc_prog] at h
  exact (Op.proc_calm hop).run H h

/-- C145: so, however many calls of the services and retrievals run at the same time, round after
round, with writes that fail and processes that are killed: no store that comes about from the empty
one makes a retrieval panic. -/
theorem C145_stores_stay_sturdy {σ σ' : Store} (H : σ.Sturdy) (h : Comes σ σ') : σ'.Sturdy := by
  induction h with
  | refl => exact H
  | round _ hc hb ih => exact (hb.calm (ih H) fun c h => (hc c h).calm).1

omit [Sha512] in
/-- C145: the empty store is of this kind. -/
theorem C145_empty_store_sturdy : Store.empty.Sturdy := .empty

/-- C145: and none of the calls panics while the others are under way. -/
theorem C145_calls_never_panic {σ₀ σ σ' : Store} (H : σ₀.Sturdy) (h : Comes σ₀ σ)
    {cs cs' : List Call} (hc : ∀ c ∈ cs, c.Fair) (hb : Beset cs σ cs' σ') {c : Call}
    (hm : c ∈ cs') (x : Crash) : ¬ c.Returned (.crash x) := by
  rintro rfl
  exact (hb.calm (C145_stores_stay_sturdy H h) fun c h => (hc c h).calm).2 _ hm x rfl

/-! ## Exactly when -/

omit [Sha512] C in
theorem readCell_bind_crash {α β : Type} {o : Option (Cell α)} {f : α → Outcome β} {c : Crash} :
    (readCell o >>= f) = .crash c ↔ ∃ a, o = some (.json a) ∧ f a = .crash c := by
  rw [bind_eq_crash]
  constructor
  · rintro (h | ⟨a, h1, h2⟩)
    · exact absurd h (readCell_no_crash _ _)
    · exact ⟨a, readCell_eq_ok.mp h1, h2⟩
  · rintro ⟨a, h1, h2⟩
    exact .inr ⟨a, readCell_eq_ok.mpr h1, h2⟩

omit [Sha512] C in
theorem calm_bind_crash {α β : Type} {o : Outcome α} {f : α → Outcome β} {c : Crash}
    (h : o.Calm) : (o >>= f) = .crash c ↔ ∃ a, o = .ok a ∧ f a = .crash c := by
  rw [bind_eq_crash]
  exact ⟨fun h' => h'.elim (fun h' => absurd h' (h c)) id, .inr⟩

theorem unlockAll_crash {c : Crash} : ∀ {bs : List Bill} {sigs : List RingSignature},
    sigs.length = bs.length → (unlockAll bs sigs = .crash c ↔
      ∃ pre b post pre' s post', bs = pre ++ b :: post ∧ sigs = pre' ++ s :: post' ∧
        List.Forall₂ (fun (b : Bill) s => b.lock.unlock s = .ok ()) pre pre' ∧
        b.lock.unlock s = .crash c)
  | [], [], _ => by simp [unlockAll]
  | [], _ :: _, h => by simp at h
  | _ :: _, [], h => by simp at h
  | b :: bs, s :: ss, h => by
    have ih := unlockAll_crash (c := c) (bs := bs) (sigs := ss) (by simpa using h)
    unfold unlockAll
    cases hu : b.lock.unlock s with
    | ok u =>
      dsimp only
      rw [ih]
      constructor
      · rintro ⟨pre, b', post, pre', s', post', rfl, rfl, h1, h2⟩
        exact ⟨b :: pre, b', post, s :: pre', s', post', rfl, rfl, .cons hu h1, h2⟩
      · rintro ⟨pre, b', post, pre', s', post', e1, e2, h1, h2⟩
        cases h1 with
        | nil =>
          obtain ⟨rfl, rfl⟩ := List.cons.inj e1
          obtain ⟨rfl, rfl⟩ := List.cons.inj e2
          rw [hu] at h2
          cases h2
        | cons h0 h1 =>
          obtain ⟨rfl, rfl⟩ := List.cons.inj e1
          obtain ⟨rfl, rfl⟩ := List.cons.inj e2
          exact ⟨_, b', post, _, s', post', rfl, rfl, h1, h2⟩
    | err m =>
      simp only [reduceCtorEq, false_iff]
      rintro ⟨pre, b', post, pre', s', post', e1, e2, h1, h2⟩
      cases h1 with
      | nil =>
        obtain ⟨rfl, rfl⟩ := List.cons.inj e1
        obtain ⟨rfl, rfl⟩ := List.cons.inj e2
        rw [hu] at h2
        cases h2
      | cons h0 h1 =>
        obtain ⟨rfl, rfl⟩ := List.cons.inj e1
        obtain ⟨rfl, rfl⟩ := List.cons.inj e2
        rw [hu] at h0
        cases h0
    | crash d =>
      simp only [Outcome.crash.injEq]
      constructor
      · rintro rfl
        exact ⟨[], b, bs, [], s, ss, rfl, rfl, .nil, hu⟩
      · rintro ⟨pre, b', post, pre', s', post', e1, e2, h1, h2⟩
        cases h1 with
        | nil =>
          obtain ⟨rfl, rfl⟩ := List.cons.inj e1
          obtain ⟨rfl, rfl⟩ := List.cons.inj e2
          rw [hu] at h2
          cases h2
          rfl
        | cons h0 h1 =>
          obtain ⟨rfl, rfl⟩ := List.cons.inj e1
          obtain ⟨rfl, rfl⟩ := List.cons.inj e2
          rw [hu] at h0
          cases h0

theorem expenseNow_crash {cn : Content} {sigs : List RingSignature} {c : Crash} :
    expenseNow (some cn) (some sigs) = .crash c ↔
      sigs.length = cn.source.length ∧ unlockAll cn.source sigs = .crash c := by
  unfold expenseNow
  dsimp only
  by_cases hl : sigs.length = cn.source.length
  · rw [if_neg (by simpa using hl)]
    cases unlockAll cn.source sigs <;> simp [hl]
  · rw [if_pos hl]
    simp [hl]

omit C in
theorem contentNow_source {a : UInt64} {bs : List Bill} {l r : Option Lock} {t : Time}
    {cn : Content} (h : contentNow a (some bs) l r t = .ok cn) : cn.source = bs := by
  obtain ⟨src, _, hs, -, -, -, -, rfl⟩ := contentNow_eq_ok.mp h
  exact (Option.some.inj hs).symm

theorem retrBill_calm (σ : Store) (h : Hash) : (retrBill σ h).Calm :=
  fun c => (C145_locks_bills_genesis_never σ c).2.1 h

theorem retrGenesis_calm (σ : Store) : (retrGenesis σ).Calm :=
  fun c => (C145_locks_bills_genesis_never σ c).2.2

/-- C145: retrieving an expense panics exactly when its file can be read, its bills can be retrieved,
there is a signature for every bill, and some signature, after ones that open their bills, has a ring
of exactly the keys of its bill and fewer scalars than ring members. -/
theorem C145_expense_panics_iff (σ : Store) (h : Hash) (c : Crash) :
    retrExpense σ h = .crash c ↔ c = .indexOutOfRange ∧
      ∃ js tr bills dest remaining content, σ.expenses h.str = some (.json js) ∧
        trExpenseFromJSON js = .ok tr ∧ mapO (retrBill σ) tr.source = .ok bills ∧
        retrBill σ tr.dest = .ok dest ∧ optO (retrBill σ) tr.remaining = .ok remaining ∧
        contentNow dest.amount (some bills) (some dest.lock) (remaining.map Bill.lock)
          tr.createdOn = .ok content ∧ tr.signatures.length = bills.length ∧
        ∃ pre b post pre' s post', bills = pre ++ b :: post ∧ tr.signatures = pre' ++ s :: post' ∧
          List.Forall₂ (fun (b : Bill) s => b.lock.unlock s = .ok ()) pre pre' ∧
          (∀ k, k ∈ b.lock.pubKeys ↔ ∃ p ∈ s.ring, ringKey p = k) ∧
          s.s.length < s.ring.length := by
  have ho : ∀ o, (optO (retrBill σ) o).Calm := by
    intro o
    cases o with
    | none => exact .ok _
    | some x =>
      simp only [optO]
      cases hx : retrBill σ x with
      | ok y => exact .ok _
      | err m => exact .err m
      | crash d => exact absurd hx (retrBill_calm σ x d)
  unfold retrExpense
  rw [readCell_bind_crash]
  constructor
  · rintro ⟨js, h1, hh⟩
    obtain ⟨tr, h2, hh⟩ := (calm_bind_crash (trExpenseFromJSON_calm js)).mp hh
    obtain ⟨bills, h3, hh⟩ :=
      (calm_bind_crash (Outcome.Calm.mapO fun x _ => retrBill_calm σ x)).mp hh
    obtain ⟨dest, h4, hh⟩ := (calm_bind_crash (retrBill_calm σ _)).mp hh
    obtain ⟨rem, h5, hh⟩ := (calm_bind_crash (ho _)).mp hh
    obtain ⟨cn, h6, hh⟩ := (calm_bind_crash contentNow_calm).mp hh
    obtain ⟨h7, hh⟩ := expenseNow_crash.mp hh
    obtain ⟨pre, b, post, pre', s, post', e1, e2, h8, h9⟩ := (unlockAll_crash h7).mp hh
    obtain ⟨rfl, h10, h11⟩ := unlock_crash.mp h9
    rw [contentNow_source h6] at h7 e1
    exact ⟨rfl, js, tr, bills, dest, rem, cn, h1, h2, h3, h4, h5, h6, h7, pre, b, post, pre', s,
      post', e1, e2, h8, h10, h11⟩
  · rintro ⟨rfl, js, tr, bills, dest, rem, cn, h1, h2, h3, h4, h5, h6, h7, pre, b, post, pre', s,
      post', e1, e2, h8, h10, h11⟩
    refine ⟨js, h1, ?_⟩
    rw [h2, Outcome.bind_ok, h3, Outcome.bind_ok, h4, Outcome.bind_ok, h5, Outcome.bind_ok, h6,
      Outcome.bind_ok]
    have hs := contentNow_source h6
    refine expenseNow_crash.mpr ⟨hs ▸ h7, (unlockAll_crash (hs ▸ h7)).mpr
      ⟨pre, b, post, pre', s, post', hs ▸ e1, e2, h8, unlock_crash.mpr ⟨rfl, h10, h11⟩⟩⟩

/-- C145: retrieving a transaction panics exactly when the retrieval of one of its expenses panics,
after expenses that can be retrieved. -/
theorem C145_trx_panics_iff (σ : Store) (h : Hash) (c : Crash) :
    retrTrx σ h = .crash c ↔ ∃ js tr pre x post, σ.trxs h.str = some (.json js) ∧
      trTransactionFromJSON js = .ok tr ∧ tr.fees = pre ++ x :: post ∧
      (∀ y ∈ pre, ∃ e, retrExpense σ y = .ok e) ∧ retrExpense σ x = .crash c := by
  have ht : ∀ js, (trTransactionFromJSON js).Calm := fun js =>
    (fromString_calm _).bind fun _ _ => (Outcome.Calm.mapO fun _ _ => fromString_calm _).bind
      fun _ _ => (optFromString_calm _).bind fun _ _ => (optFromString_calm _).bind fun _ _ => by
      unfold trTransactionNow
      split
      · exact .err _
      · exact .ok _
  have hn : ∀ a b f t, (trxNow a b f t).Calm := by
    intro a b f t
    unfold trxNow
    dsimp only
    split
    · exact .err _
    · exact .ok _
  unfold retrTrx
  rw [readCell_bind_crash]
  constructor
  · rintro ⟨js, h1, hh⟩
    obtain ⟨tr, h2, hh⟩ := (calm_bind_crash (ht js)).mp hh
    rcases bind_eq_crash.mp hh with hh | ⟨fees, -, hh⟩
    · obtain ⟨pre, x, post, h3, h4, h5⟩ := mapO_eq_crash.mp hh
      exact ⟨js, tr, pre, x, post, h1, h2, h3, h4, h5⟩
    · exact absurd hh (hn _ _ _ _ _)
  · rintro ⟨js, tr, pre, x, post, h1, h2, h3, h4, h5⟩
    refine ⟨js, h1, ?_⟩
    rw [h2, Outcome.bind_ok, mapO_eq_crash.mpr ⟨pre, x, post, h3, h4, h5⟩, Outcome.bind_crash]

omit C in
theorem mapO_heads {β : Type} {g : Hash → Outcome β} {as : List Bytes} {bs : List Leaf}
    (h : List.Forall₂ (fun s (x : Leaf) => fromString s = .ok x.head) as bs) :
    mapO g (bs.map Leaf.head) = mapO (fun s => fromString s >>= g) as := by
  induction h with
  | nil => rfl
  | cons h _ ih => simp only [List.map_cons, mapO, h, ih, Outcome.bind_ok]

/-- Taking the hashes out of a rebuilt tree and retrieving the transactions. -/
theorem taken_crash {σ : Store} {t : JCompact} {x : HashTree} {a : UInt64} {c : Crash}
    (hx : (compactFromJSON t >>= fun x => leavesHashTree x.leaves) = .ok x) :
    (takeLeaves x.blockLeaves a >>= fun hashes => mapO (retrTrx σ) hashes) = .crash c ↔
      ((t.tips.length < takenOf a ∧ c = .indexOutOfRange) ∨
        takenOf a ≤ t.tips.length ∧ ∃ pre s post, t.tips.take (takenOf a) = pre ++ s :: post ∧
          (∀ y ∈ pre, ∃ z, (fromString y >>= retrTrx σ) = .ok z) ∧
          (fromString s >>= retrTrx σ) = .crash c) := by
  have hf := (compact_ok hx).2.2.2
  have hlen := hf.length_eq
  unfold takeLeaves
  rw [toInt_takenOf, ← hlen]
  by_cases h : takenOf a ≤ t.tips.length
  · rw [if_pos h, Outcome.bind_ok, mapO_heads (List.forall₂_take _ hf), mapO_eq_crash]
    simp [h, Nat.not_lt.mpr h]
  · rw [if_neg h, Outcome.bind_crash]
    simp only [h, false_and, or_false, Nat.lt_of_not_le h, true_and, Outcome.crash.injEq]
    exact eq_comm

/-- C145: retrieving a block panics exactly when its file can be read, the hash in it is a hash text,
and: there is no tree; or the tree cannot be rebuilt (a leaf is missing, there are no leaves, or
their number is not a power of two); or, if the genesis can be retrieved, the tree has fewer hashes
than the stored amount; or the retrieval of one of the transactions panics, after transactions that
can be retrieved. -/
theorem C145_block_panics_iff (σ : Store) (h : Hash) (c : Crash) :
    retrBlock σ h = .crash c ↔ ∃ js k, σ.blocks h.str = some (.json js) ∧
      fromString js.hash = .ok k ∧
      ((js.trx = none ∧ c = .nilDeref) ∨ ∃ t k', js.trx = some t ∧ fromString t.head = .ok k' ∧
        (t.Breaks c ∨ t.Whole ∧ (∃ j, t.leaves.length = 2 ^ (j + 1)) ∧ js.amount ≠ 0 ∧
          (∃ g, retrGenesis σ = .ok g) ∧
          ((t.tips.length < takenOf js.amount ∧ c = .indexOutOfRange) ∨
            takenOf js.amount ≤ t.tips.length ∧ ∃ pre s post,
              t.tips.take (takenOf js.amount) = pre ++ s :: post ∧
              (∀ y ∈ pre, ∃ z, (fromString y >>= retrTrx σ) = .ok z) ∧
              (fromString s >>= retrTrx σ) = .crash c))) := by
  have hn : ∀ g a x t, (blockNow g a x t).Calm := by
    intro g a x t
    unfold blockNow
    split
    · exact .err _
    · split
      · exact .err _
      · split
        · exact .err _
        · exact .ok _
  unfold retrBlock
  rw [readCell_bind_crash]
  constructor
  · rintro ⟨js, h1, hh⟩
    rw [trBlockFromJSON_eq] at hh
    cases hk : fromString js.hash with
    | err m => rw [hk] at hh; cases hh
    | crash d => exact absurd hk (fromString_not_crash _ _)
    | ok k =>
      refine ⟨js, k, h1, hk, ?_⟩
      rw [hk, Outcome.bind_ok] at hh
      cases ht : js.trx with
      | none =>
        rw [ht] at hh
        exact .inl ⟨rfl, by cases hh; rfl⟩
      | some t =>
        right
        rw [ht] at hh
        simp only [Outcome.deref, Outcome.bind_ok] at hh
        cases hx : (compactFromJSON t >>= fun x => leavesHashTree x.leaves) with
        | err m => rw [hx] at hh; cases hh
        | crash d =>
          rw [hx] at hh
          cases hh
          obtain ⟨⟨k', hk'⟩, hb⟩ := compact_crash.mp hx
          exact ⟨t, k', rfl, hk', .inl hb⟩
        | ok x =>
          obtain ⟨⟨k', hk'⟩, hw, hp, -⟩ := compact_ok hx
          rw [hx, Outcome.bind_ok] at hh
          refine ⟨t, k', rfl, hk', .inr ⟨hw, hp, ?_⟩⟩
          unfold trBlockNow at hh
          split at hh
          · cases hh
          · rename_i ha
            refine ⟨fun h0 => ha (by rw [h0]; exact UInt64.le_refl 0), ?_⟩
            rw [Outcome.bind_ok] at hh
            obtain ⟨g, hg, hh⟩ := (calm_bind_crash (retrGenesis_calm σ)).mp hh
            refine ⟨⟨g, hg⟩, (taken_crash hx).mp ?_⟩
            rcases bind_eq_crash.mp hh with hh | ⟨hs, h3, hh⟩
            · exact bind_eq_crash.mpr (.inl hh)
            · rcases bind_eq_crash.mp hh with hh | ⟨_, -, hh⟩
              · exact bind_eq_crash.mpr (.inr ⟨hs, h3, hh⟩)
              · exact absurd hh (hn _ _ _ _ _)
  · rintro ⟨js, k, h1, hk, hh⟩
    refine ⟨js, h1, ?_⟩
    rw [trBlockFromJSON_eq, hk, Outcome.bind_ok]
    rcases hh with ⟨ht, rfl⟩ | ⟨t, k', ht, hk', hh⟩
    · rw [ht]; rfl
    · rw [ht]
      simp only [Outcome.deref, Outcome.bind_ok]
      rcases hh with hb | ⟨hw, hp, ha, ⟨g, hg⟩, hh⟩
      · rw [compact_crash.mpr ⟨⟨k', hk'⟩, hb⟩]; rfl
      · obtain ⟨x, hx⟩ := compact_of hk' hw hp
        rw [hx, Outcome.bind_ok]
        have ha' : ¬ js.amount ≤ 0 := fun h0 => ha (UInt64.le_zero_iff.mp h0)
        unfold trBlockNow
        rw [if_neg ha', Outcome.bind_ok, hg, Outcome.bind_ok]
        rcases bind_eq_crash.mp ((taken_crash (σ := σ) hx).mpr hh) with h3 | ⟨hs, h3, h4⟩
        · exact bind_eq_crash.mpr (.inl h3)
        · exact bind_eq_crash.mpr (.inr ⟨hs, h3, bind_eq_crash.mpr (.inl h4)⟩)

/-- C145: retrieving a state panics exactly under the same conditions on its tree, amount and
transactions; no genesis is retrieved. -/
theorem C145_state_panics_iff (σ : Store) (h : Hash) (n : UInt64) (c : Crash) :
    retrState σ h n = .crash c ↔ ∃ js k k₁ k₂, σ.states (statePath h n) = some (.json js) ∧
      fromString js.hash = .ok k ∧ fromString js.chain = .ok k₁ ∧ fromString js.prev = .ok k₂ ∧
      ((js.trx = none ∧ c = .nilDeref) ∨ ∃ t k', js.trx = some t ∧ fromString t.head = .ok k' ∧
        (t.Breaks c ∨ t.Whole ∧ (∃ j, t.leaves.length = 2 ^ (j + 1)) ∧ js.height ≠ 0 ∧
          js.amount ≠ 0 ∧
          ((t.tips.length < takenOf js.amount ∧ c = .indexOutOfRange) ∨
            takenOf js.amount ≤ t.tips.length ∧ ∃ pre s post,
              t.tips.take (takenOf js.amount) = pre ++ s :: post ∧
              (∀ y ∈ pre, ∃ z, (fromString y >>= retrTrx σ) = .ok z) ∧
              (fromString s >>= retrTrx σ) = .crash c))) := by
  have hn : ∀ a b m x t, (stateNow a b m x t).Calm := by
    intro a b m x t
    unfold stateNow
    split
    · exact .err _
    · split
      · exact .err _
      · split
        · exact .err _
        · split
          · exact .err _
          · split
            · exact .err _
            · exact .ok _
  unfold retrState
  rw [readCell_bind_crash]
  constructor
  · rintro ⟨js, h1, hh⟩
    rw [trStateFromJSON_eq] at hh
    cases hk : fromString js.hash with
    | err m => rw [hk] at hh; cases hh
    | crash d => exact absurd hk (fromString_not_crash _ _)
    | ok k =>
      rw [hk, Outcome.bind_ok] at hh
      cases hk₁ : fromString js.chain with
      | err m => rw [hk₁] at hh; cases hh
      | crash d => exact absurd hk₁ (fromString_not_crash _ _)
      | ok k₁ =>
        rw [hk₁, Outcome.bind_ok] at hh
        cases hk₂ : fromString js.prev with
        | err m => rw [hk₂] at hh; cases hh
        | crash d => exact absurd hk₂ (fromString_not_crash _ _)
        | ok k₂ =>
          rw [hk₂, Outcome.bind_ok] at hh
          refine ⟨js, k, k₁, k₂, h1, hk, hk₁, hk₂, ?_⟩
          cases ht : js.trx with
          | none =>
            rw [ht] at hh
            exact .inl ⟨rfl, by cases hh; rfl⟩
          | some t =>
            right
            rw [ht] at hh
            simp only [Outcome.deref, Outcome.bind_ok] at hh
            cases hx : (compactFromJSON t >>= fun x => leavesHashTree x.leaves) with
            | err m => rw [hx] at hh; cases hh
            | crash d =>
              rw [hx] at hh
              cases hh
              obtain ⟨⟨k', hk'⟩, hb⟩ := compact_crash.mp hx
              exact ⟨t, k', rfl, hk', .inl hb⟩
            | ok x =>
              obtain ⟨⟨k', hk'⟩, hw, hp, -⟩ := compact_ok hx
              rw [hx, Outcome.bind_ok] at hh
              refine ⟨t, k', rfl, hk', .inr ⟨hw, hp, ?_⟩⟩
              unfold trStateNow at hh
              split at hh
              · cases hh
              · rename_i hz
                split at hh
                · cases hh
                · rename_i ha
                  refine ⟨fun h0 => hz (by rw [h0]; exact UInt64.le_refl 0),
                    fun h0 => ha (by rw [h0]; exact UInt64.le_refl 0), ?_⟩
                  rw [Outcome.bind_ok] at hh
                  refine (taken_crash hx).mp ?_
                  rcases bind_eq_crash.mp hh with hh | ⟨hs, h3, hh⟩
                  · exact bind_eq_crash.mpr (.inl hh)
                  · rcases bind_eq_crash.mp hh with hh | ⟨_, -, hh⟩
                    · exact bind_eq_crash.mpr (.inr ⟨hs, h3, hh⟩)
                    · exact absurd hh (hn _ _ _ _ _ _)
  · rintro ⟨js, k, k₁, k₂, h1, hk, hk₁, hk₂, hh⟩
    refine ⟨js, h1, ?_⟩
    rw [trStateFromJSON_eq, hk, Outcome.bind_ok, hk₁, Outcome.bind_ok, hk₂, Outcome.bind_ok]
    rcases hh with ⟨ht, rfl⟩ | ⟨t, k', ht, hk', hh⟩
    · rw [ht]; rfl
    · rw [ht]
      simp only [Outcome.deref, Outcome.bind_ok]
      rcases hh with hb | ⟨hw, hp, hz, ha, hh⟩
      · rw [compact_crash.mpr ⟨⟨k', hk'⟩, hb⟩]; rfl
      · obtain ⟨x, hx⟩ := compact_of hk' hw hp
        rw [hx, Outcome.bind_ok]
        have ha' : ¬ js.amount ≤ 0 := fun h0 => ha (UInt64.le_zero_iff.mp h0)
        have hz' : ¬ js.height ≤ 0 := fun h0 => hz (UInt64.le_zero_iff.mp h0)
        unfold trStateNow
        rw [if_neg hz', if_neg ha', Outcome.bind_ok]
        rcases bind_eq_crash.mp ((taken_crash (σ := σ) hx).mpr hh) with h3 | ⟨hs, h3, h4⟩
        · exact bind_eq_crash.mpr (.inl h3)
        · exact bind_eq_crash.mpr (.inr ⟨hs, h3, bind_eq_crash.mpr (.inl h4)⟩)

/-- C145: the retrieval of a mined block, a link or a mined link panics exactly when its file can be
read and the retrieval of the block or link that it names panics. -/
theorem C145_containers_panic_iff (σ : Store) (h : Hash) (c : Crash) :
    (retrMinedBlock σ h = .crash c ↔ ∃ js tr, σ.minedBlocks h.str = some (.json js) ∧
      trMinedFromJSON js = .ok tr ∧ retrBlock σ tr.of = .crash c) ∧
    (retrLink σ h = .crash c ↔ ∃ js tr, σ.links h.str = some (.json js) ∧
      trLinkFromJSON js = .ok tr ∧ retrBlock σ tr.next = .crash c) ∧
    (retrMinedLink σ h = .crash c ↔ ∃ js tr, σ.minedLinks h.str = some (.json js) ∧
      trMinedFromJSON js = .ok tr ∧ retrLink σ tr.of = .crash c) := by
  have hl : ∀ js, (trLinkFromJSON js).Calm := fun js =>
    (fromString_calm _).bind fun _ _ => (fromString_calm _).bind fun _ _ =>
      (fromString_calm _).bind fun _ _ => .ok _
  have key : ∀ {α β γ δ : Type} {o : Option (Cell α)} {f : α → Outcome β} {g : β → Outcome γ}
      {m : β → γ → Outcome δ}, (∀ a, (f a).Calm) → (∀ b y, (m b y).Calm) →
      ((readCell o >>= fun js => f js >>= fun tr => g tr >>= m tr) = .crash c ↔
        ∃ js tr, o = some (.json js) ∧ f js = .ok tr ∧ g tr = .crash c) := by
    intro α β γ δ o f g m hf hm
    rw [readCell_bind_crash]
    constructor
    · rintro ⟨js, h1, hh⟩
      obtain ⟨tr, h2, hh⟩ := (calm_bind_crash (hf js)).mp hh
      rcases bind_eq_crash.mp hh with hh | ⟨y, -, hh⟩
      · exact ⟨js, tr, h1, h2, hh⟩
      · exact absurd hh (hm _ _ _)
    · rintro ⟨js, tr, h1, h2, hh⟩
      refine ⟨js, h1, ?_⟩
      rw [h2, Outcome.bind_ok, hh, Outcome.bind_crash]
  exact ⟨key trMinedFromJSON_calm fun _ _ => .ok _, key hl fun _ _ => .ok _,
    key trMinedFromJSON_calm fun _ _ => .ok _⟩

/-- C145: the retrieval of the chain panics exactly when its file can be read and the genesis
retrieved, and the retrieval of the root panics, or that of the head after the root was retrieved
(line 52 of the repository lets the chain through only when the hashes of the genesis differ). -/
theorem C145_chain_panics_iff (σ : Store) (c : Crash) :
    retrChain σ = .crash c ↔ ∃ js tr g, σ.chain = some (.json js) ∧ trChainFromJSON js = .ok tr ∧
      retrGenesis σ = .ok g ∧ tr.genesis.compare g.hash = false ∧
      (retrMinedBlock σ tr.root = .crash c ∨
        (∃ r, retrMinedBlock σ tr.root = .ok r) ∧ retrMinedLink σ tr.head = .crash c) := by
  have hc : ∀ js, (trChainFromJSON js).Calm := fun js =>
    (fromString_calm _).bind fun _ _ => (fromString_calm _).bind fun _ _ =>
      (fromString_calm _).bind fun _ _ => (fromString_calm _).bind fun _ _ => by
      unfold trChainNow
      split
      · exact .err _
      · exact .ok _
  have hn : ∀ a b d n t, (chainNow a b d n t).Calm := by
    intro a b d n t
    unfold chainNow
    split
    · exact .err _
    · split
      · exact .err _
      · split
        · exact .err _
        · dsimp only
          split
          · exact .err _
          · exact .ok _
  unfold retrChain
  rw [readCell_bind_crash]
  constructor
  · rintro ⟨js, h1, hh⟩
    obtain ⟨tr, h2, hh⟩ := (calm_bind_crash (hc js)).mp hh
    obtain ⟨g, h3, hh⟩ := (calm_bind_crash (retrGenesis_calm σ)).mp hh
    obtain ⟨_, h4, hh⟩ := (calm_bind_crash guardNot_calm).mp hh
    refine ⟨js, tr, g, h1, h2, h3, ?_, ?_⟩
    · cases hb : tr.genesis.compare g.hash with
      | false => rfl
      | true => rw [hb] at h4; cases h4
    · rcases bind_eq_crash.mp hh with hh | ⟨r, hr, hh⟩
      · exact .inl hh
      · rcases bind_eq_crash.mp hh with hh | ⟨_, -, hh⟩
        · exact .inr ⟨⟨r, hr⟩, hh⟩
        · exact absurd hh (hn _ _ _ _ _ _)
  · rintro ⟨js, tr, g, h1, h2, h3, h4, hh⟩
    refine ⟨js, h1, ?_⟩
    rw [h2, Outcome.bind_ok, h3, Outcome.bind_ok, h4]
    show (retrMinedBlock σ tr.root >>= _) = _
    rcases hh with hh | ⟨⟨r, hr⟩, hh⟩
    · rw [hh, Outcome.bind_crash]
    · rw [hr, Outcome.bind_ok, hh, Outcome.bind_crash]

end

section examples

attribute [local instance] toyCurve toySha FloatText.decimal

/-- A store with nothing but the file of a block. -/
def oneBlock (js : JTrBlock) : Store := { Store.empty with blocks := fun _ => some (.json js) }

/-- C145: a file without a tree (`{"hash": ..., "amount": 1}`), one with a tree without leaves, one
with a leaf that is `null`, and one with three leaves: all four ways of panicking. -/
example (h : Hash) : let x := (toyHash 1).str
    retrBlock (oneBlock ⟨x, none, 1, 0, 0⟩) h = .crash .nilDeref ∧
    retrBlock (oneBlock ⟨x, some ⟨x, []⟩, 1, 0, 0⟩) h = .crash .stackOverflow ∧
    retrBlock (oneBlock ⟨x, some ⟨x, [.atom x, .null]⟩, 1, 0, 0⟩) h = .crash .nilDeref ∧
    retrBlock (oneBlock ⟨x, some ⟨x, [.atom x, .atom x, .atom x]⟩, 1, 0, 0⟩) h =
      .crash .indexOutOfRange := by
  intro x
  have hx : fromString x = .ok (toyHash 1) := fromString_str _
  refine ⟨(C145_block_panics_iff _ _ _).mpr ⟨_, _, rfl, hx, .inl ⟨rfl, rfl⟩⟩,
    (C145_block_panics_iff _ _ _).mpr ⟨_, _, rfl, hx, .inr ⟨_, _, rfl, hx, .inl (.empty rfl)⟩⟩,
    (C145_block_panics_iff _ _ _).mpr ⟨_, _, rfl, hx, .inr ⟨_, _, rfl, hx, .inl (.gap
      ⟨[x], [], rfl, by simpa using ⟨_, hx⟩⟩)⟩⟩,
    (C145_block_panics_iff _ _ _).mpr ⟨_, _, rfl, hx, .inr ⟨_, _, rfl, hx, .inl (.odd ?_ (by simp) ?_)⟩⟩⟩
  · intro y hy
    simp [JLeaf.texts] at hy
    exact ⟨x, _, hy, hx⟩
  · rintro ⟨k, hk⟩
    simp only [List.length_cons, List.length_nil, pow_succ] at hk
    omega

/-- C145: the same block file does no harm when the tree is fine, though the block is not found. -/
example (h : Hash) (c : Crash) : let x := (toyHash 1).str
    (oneBlock ⟨x, some ⟨x, [.atom x, .atom x]⟩, 1, 0, 0⟩).Sturdy ∧
    retrBlock (oneBlock ⟨x, some ⟨x, [.atom x, .atom x]⟩, 1, 0, 0⟩) h ≠ .crash c := by
  intro x
  have H : (oneBlock ⟨x, some ⟨x, [.atom x, .atom x]⟩, 1, 0, 0⟩).Sturdy := by
    intro n a ha
    cases n with
    | block p =>
      cases ha
      exact ⟨_, rfl, by simp [JLeaf.texts], ⟨0, rfl⟩, by decide⟩
    | _ => cases ha
  exact ⟨H, (C145_sturdy_files_never_panic H c).2.2.2.2.2.1 h⟩

/-- C145: an expense with a signature that has a ring member and no scalar. -/
example : ∃ (σ : Store) (h : Hash), retrExpense σ h = .crash .indexOutOfRange := by
  obtain ⟨l, hl⟩ : ∃ l, lockNow (some [ringKey (2 : ZMod 5)]) 0 = .ok l :=
    ⟨_, lockNow_eq_ok.mpr ⟨_, rfl, by simp, by simp, rfl⟩⟩
  have hk : l.pubKeys = [ringKey (2 : ZMod 5)] := by
    obtain ⟨_, h, -, -, rfl⟩ := lockNow_eq_ok.mp hl
    cases h
    rfl
  obtain ⟨b, hb⟩ : ∃ b, billNow (some l) 5 0 = .ok b :=
    ⟨_, billNow_eq_ok.mpr ⟨_, rfl, by decide, rfl⟩⟩
  have hbl : b.lock = l ∧ b.amount = 5 := by
    obtain ⟨_, h, -, rfl⟩ := billNow_eq_ok.mp hb
    cases h
    exact ⟨rfl, rfl⟩
  let x := (toyHash 1).str
  let sig : RingSignature := ⟨[(2 : ZMod 5)], [], toySc 1⟩
  let σ : Store := { Store.empty with
    locks := fun _ => some (.json ⟨x, [(ringKey (2 : ZMod 5)).str], 0⟩)
    bills := fun _ => some (.json ⟨x, x, 5, 0⟩)
    expenses := fun _ => some (.json ⟨x, [x], x, [sig.str], [], 0⟩) }
  have hx : fromString x = .ok (toyHash 1) := fromString_str _
  have hr : ∀ h, retrBill σ h = .ok b := by
    intro h
    simp [retrBill, retrLock, σ, readCell, trBillFromJSON, trLockFromJSON, trBillNow, trLockNow,
      hx, mapO, hl, hb]
  refine ⟨σ, toyHash 3, (C145_expense_panics_iff _ _ _).mpr ⟨rfl, _,
    ⟨toyHash 1, [toyHash 1], toyHash 1, [⟨[(2 : ZMod 5)], [], normSc (toySc 1)⟩], none, 0⟩,
    [b], b, none, _, rfl, ?_, ?_, hr _, rfl, contentNow_eq_ok.mpr ⟨_, _, rfl, rfl, ?_, ?_, ?_, rfl⟩, rfl,
    [], b, [], [], _, [], rfl, rfl, .nil, ?_, by simp⟩⟩
  · simp [trExpenseFromJSON, hx, mapO, toRingSignature_str, optFromString, trExpenseNow, sig]
  · simp [mapO, hr]
  · rw [hbl.2]; decide
  · simp [sourceTotal, hbl.2]
  · simp [sourceTotal, hbl.2]
  · intro k
    rw [hbl.1, hk]
    simp [eq_comm]

/-- C145: on a store with a genesis, two calls that save the same mined block and a retrieval of it
run at the same time. -/
example : ∃ (σ σ' : Store) (r : MinedBlock) (cs : List Call), σ.Sturdy ∧ Comes σ σ' ∧
    Beset [.next (Op.minedBlock r).proc, .next (Op.minedBlock r).proc,
      (Query.minedBlock r.hash).call verdict] σ cs σ' ∧
    (∀ c ∈ cs, c.Idle) ∧ (∀ c ∈ cs, ∀ x, ¬ c.Returned (.crash x)) ∧
    ∀ x, retrMinedBlock σ' r.hash ≠ .crash x := by
  obtain ⟨W, x, t, b, r, k, X, G, O, hx, ht, hg, hb, hr, -⟩ := toy_world_exact
  have H : Store.Sturdy ((saveGenesis b.genesis).exec .empty).2 :=
    (C145_saving_never_panics C145_empty_store_sturdy (op := .genesis b.genesis)
      (G.genesis_built _ hg) (Run.of_exec (saveGenesis b.genesis) .empty)).1
  generalize ((saveGenesis b.genesis).exec .empty).2 = σ at H
  have hc : ∀ c ∈ [.next (Op.minedBlock r).proc, .next (Op.minedBlock r).proc,
      (Query.minedBlock r.hash).call verdict], c.Fair := by
    have h1 : Call.Fair (.next (Op.minedBlock r).proc) := .save _ (G.minedBlock_built r hr)
    have h2 : Call.Fair ((Query.minedBlock r.hash).call verdict) := .find _ _ fun o h c => by
      cases o <;> simp [verdict]
    simp only [List.mem_cons, List.not_mem_nil, or_false]
    rintro c (rfl | rfl | rfl) <;> assumption
  have t0 := Together.refl [.next (Op.minedBlock r).proc, .next (Op.minedBlock r).proc,
      (Query.minedBlock r.hash).call verdict] σ
  obtain ⟨o₁, σ₁, t1⟩ := Together.runs (as := []) (bs := [_, _]) t0
  obtain ⟨o₂, σ₂, t2⟩ := Together.runs (as := [_]) (bs := [_]) t1
  have t3 := Together.finds (q := .minedBlock r.hash) (k := fun o => .ret (verdict o)) (as := [_, _])
    (bs := []) t2
  have hcm := Comes.round (.refl σ) hc t3.beset
  refine ⟨σ, _, r, _, H, hcm, t3.beset, by simp [Call.Idle], fun c hm x =>
    C145_calls_never_panic H (.refl σ) hc t3.beset hm x, fun x =>
    (C145_sturdy_files_never_panic (C145_stores_stay_sturdy H hcm) x).2.2.2.2.2.2.1 _⟩

end examples

end Verif
