import Verif.Spec.Sync
import Verif.Props.Daemons

/-!
# Networks of nodes that run the chain daemon: C158
-/

namespace Verif

section
variable [C : Curve] {P : ChainPort} {N : ChainCourse P}

theorem pickChain_from {n : UInt64} {remote : Peer → Outcome RemoteChain} {c : Chain} {app : RemoteChain} :
    ∀ {ps : List Peer} {best : Int × Option (Chain × RemoteChain)},
      pickChain n remote ps best = .ok (some (c, app)) →
      best.2 = some (c, app) ∨ ∃ p, remote p = .ok app ∧ app.retrieve = .ok c
  | [], best, h => .inl (Outcome.ok.inj h)
  | p :: ps, best, h => by
    simp only [pickChain, Outcome.bind_eq_ok] at h
    obtain ⟨a, h1, d, h2, h3⟩ := h
    rcases pickChain_from h3 with h | h
    · split at h
      · cases h
        exact .inr ⟨p, h1, h2⟩
      · exact .inl h
    · exact .inr h

/-- A round leaves the chain, or does the upgrades from one of the nodes that it asked. -/
theorem chainRound_cases {peers : Outcome (Option (List Peer))} {remote : Peer → Outcome RemoteChain}
    {s s' : P.S} {r : RoundEnd} (h : chainRound P peers remote s = (r, s')) :
    s' = s ∨ ∃ l q app c, P.retrieve s = .ok l ∧ remote q = .ok app ∧ app.retrieve = .ok c ∧
      s' = (upgradeLoop P app (toInt (c.height - l.height)).toNat l.height s).2 := by
  unfold chainRound at h
  split at h
  · cases h; exact .inl rfl
  · cases h; exact .inl rfl
  · cases h; exact .inl rfl
  · rename_i l c app e
    simp only [Outcome.bind_eq_ok] at e
    obtain ⟨l', h1, ps, h2, ps', h3, best, h4, h5⟩ := e
    cases h5
    cases h
    rcases pickChain_from h4 with h | ⟨q, hq, hc⟩
    · cases h
    · exact .inr ⟨l, q, app, c, h1, hq, hc, rfl⟩

theorem upgradeLoop_height (hP : P.Lawful) {app : RemoteChain} (ha : ∀ i d, app.atIndex i = .ok d → d.height = i) :
    ∀ {k : ℕ} {h : UInt64} {s : P.S}, h.toNat + k < 2 ^ 64 →
      (upgradeLoop P app k h s).2 = s ∨ ∃ c, P.retrieve (upgradeLoop P app k h s).2 = .ok c ∧
        h.toNat ≤ c.height.toNat ∧ c.height.toNat < h.toNat + k
  | 0, h, s, _ => .inl rfl
  | k + 1, h, s, hk => by
    rw [upgradeLoop]
    cases e : app.atIndex h with
    | err m => exact .inl rfl
    | crash c => exact .inl rfl
    | ok d =>
      simp only
      have hd := ha _ _ e
      split
      · rename_i s₁ h1
        right
        have hn : (h + 1).toNat = h.toNat + 1 := by
          rw [UInt64.toNat_add]
          have : (1 : UInt64).toNat = 1 := rfl
          omega
        rcases upgradeLoop_height hP ha (k := k) (h := h + 1) (s := s₁) (by omega) with h2 | ⟨c, h2, h3, h4⟩
        · obtain ⟨c, hc, hh⟩ := hP.upgrade_ok h1
          refine ⟨c, by rw [h2]; exact hc, ?_⟩
          have : c.height = h := by
            rw [← hd]
            unfold Chain.height
            rw [hh]
          rw [this]
          omega
        · exact ⟨c, h2, by omega, by omega⟩
      · rename_i r hr
        left
        exact hP.upgrade_fails fun e => hr (P.upgrade s d.head).2 (Prod.ext e rfl)

/-- In a round a node keeps its chain, or gets one that is at least as high, and lower than the one of a node
that was asked. -/
theorem ChainEvolves.step (hP : P.Lawful) {H : ℕ} (hH : H < 2 ^ 63) (hE : ChainEvolves N) (t : ℕ) (p : Peer)
    (hi : ∀ j ≤ t, ∀ p c, (N j p).Has c → c.height.toNat ≤ H) :
    ∃ b ≤ t, (N (t + 1) p).files = (N b p).files ∨ ∃ l c c' q i, (N b p).Has l ∧ i ≤ t ∧ (N i q).Has c ∧
      (N (t + 1) p).Has c' ∧ l.height.toNat ≤ c'.height.toNat ∧ c'.height.toNat < c.height.toNat := by
  have key : ∀ {b i : ℕ} {l c : Chain} {q : Peer} {app : RemoteChain} {k : ℕ}, b ≤ t → i ≤ t → (N b p).Has l →
      (∀ i d, app.atIndex i = .ok d → d.height = i) → (N i q).Has c →
      k ≤ (toInt (c.height - l.height)).toNat →
      (N (t + 1) p).files = (upgradeLoop P app k l.height (N b p).files).2 →
      (N (t + 1) p).files = (N b p).files ∨ ∃ l c c' q i, (N b p).Has l ∧ i ≤ t ∧ (N i q).Has c ∧
        (N (t + 1) p).Has c' ∧ l.height.toNat ≤ c'.height.toNat ∧ c'.height.toNat < c.height.toNat := by
    intro b i l c q app k hb hit hl ha hc hk hf
    have h1 := hi b hb p l hl
    have h2 := hi i hit q c hc
    rw [toInt_sub (by omega) (by omega)] at hk
    rcases upgradeLoop_height hP ha (k := k) (h := l.height) (s := (N b p).files) (by omega) with h | ⟨c', h3, h4, h5⟩
    · exact .inl (hf.trans h)
    · exact .inr ⟨l, c, c', q, i, hl, hit, hc, (congrArg P.retrieve hf).trans h3, h4, by omega⟩
  rcases hE t p with h | ⟨b, u, hb, hu, -, peers, remote, r, s, hans, hshow, hround, hfiles, -⟩
  · exact ⟨t, le_rfl, .inl (by rw [h])⟩
  · refine ⟨b, hb, ?_⟩
    rcases Nat.lt_or_ge t u with h | h
    · rcases (hshow (t + 1) (by omega) (by omega)).2 with h1 | ⟨l, q, app, c, k, i, h1, h2, h3, h4, h5, h6, h7⟩
      · exact .inl h1
      · exact key (i := i) (q := q) hb (by omega) h1 (hans q app h2).2 (h4.symm.trans h5) h6 h7
    · obtain rfl : t = u := by omega
      rcases chainRound_cases hround with h1 | ⟨l, q, app, c, h1, h2, h3, h4⟩
      · exact .inl (hfiles.trans h1)
      · obtain ⟨⟨i, -, h5, h6⟩, h7⟩ := hans q app h2
        exact key (i := i) (q := q) hb h5 h1 h7 (h6.symm.trans h3) le_rfl (hfiles.trans h4)

theorem ChainEvolves.bounded (hP : P.Lawful) {H : ℕ} (hH : H < 2 ^ 63) (hE : ChainEvolves N) (hN : AtMost N H)
    (t : ℕ) : ∀ j ≤ t, ∀ p c, (N j p).Has c → c.height.toNat ≤ H := by
  induction t with
  | zero =>
    intro j hj
    rw [Nat.le_zero.mp hj]
    exact hN
  | succ t ih =>
    intro j hj p c hc
    rcases Nat.le_succ_iff.mp hj with h | rfl
    · exact ih j h p c hc
    · obtain ⟨b, hb, h | ⟨l, d, c', q, i, -, h2, h3, h4, -, h6⟩⟩ := hE.step hP hH t p ih
      · exact ih b hb p c ((congrArg P.retrieve h).symm.trans hc)
      · have := ih i h2 q d h3
        have hcc : c = c' := Outcome.ok.inj (hc.symm.trans h4)
        rw [hcc]
        omega

/-- C158: no node ever falls below the height it began with. -/
theorem C158_heights_are_kept (hP : P.Lawful) {H : ℕ} (hH : H < 2 ^ 63) (hE : ChainEvolves N) (hN : AtMost N H)
    {p : Peer} {c : Chain} (hc : (N 0 p).Has c) (t : ℕ) :
    ∃ c', (N t p).Has c' ∧ c.height.toNat ≤ c'.height.toNat ∧ c'.height.toNat ≤ H := by
  induction t using Nat.strong_induction_on with
  | _ t ih =>
    cases t with
    | zero => exact ⟨c, hc, le_rfl, hN p c hc⟩
    | succ t =>
      obtain ⟨b, hb, h | ⟨l, d, c', q, i, h1, h2, h3, h4, h5, h6⟩⟩ :=
        hE.step hP hH t p (hE.bounded hP hH hN t)
      · obtain ⟨c', h1, h2⟩ := ih b (by omega)
        exact ⟨c', (congrArg P.retrieve h).trans h1, h2⟩
      · obtain ⟨l', h7, h8, -⟩ := ih b (by omega)
        have hll : l' = l := Outcome.ok.inj (h7.symm.trans h1)
        subst hll
        exact ⟨c', h4, by omega, hE.bounded hP hH hN (t + 1) (t + 1) le_rfl p c' h4⟩

/-- C158 refuted: a node that begins below the greatest height of the network never reaches it, whatever rounds
are done by whom. -/
theorem C158_newest_link_never_arrives_neg (hP : P.Lawful) {H : ℕ} (hH : H < 2 ^ 63) (hE : ChainEvolves N)
    (hN : AtMost N H) {p : Peer} (hp : ∀ c, (N 0 p).Has c → c.height.toNat < H) {t : ℕ} {c : Chain}
    (hc : (N t p).Has c) : c.height.toNat < H := by
  induction t using Nat.strong_induction_on generalizing c with
  | _ t ih =>
    cases t with
    | zero => exact hp c hc
    | succ t =>
      obtain ⟨b, hb, h | ⟨l, d, c', q, i, h1, h2, h3, h4, h5, h6⟩⟩ :=
        hE.step hP hH t p (hE.bounded hP hH hN t)
      · exact ih b (by omega) ((congrArg P.retrieve h).symm.trans hc)
      · have := hE.bounded hP hH hN t i h2 q d h3
        have hcc : c = c' := Outcome.ok.inj (hc.symm.trans h4)
        rw [hcc]
        omega

/-- C158 refuted: nodes of the greatest height never change, so that two of them with different chains stay with
them, even if one has more transactions. -/
theorem C158_highest_never_agree_neg (hP : P.Lawful) {H : ℕ} (hH : H < 2 ^ 63) (hE : ChainEvolves N)
    (hN : AtMost N H) {p : Peer} {c : Chain} (hc : (N 0 p).Has c) (hh : c.height.toNat = H) (t : ℕ) :
    (N t p).files = (N 0 p).files := by
  induction t using Nat.strong_induction_on with
  | _ t ih =>
    cases t with
    | zero => rfl
    | succ t =>
      obtain ⟨b, hb, h | ⟨l, d, c', q, i, h1, h2, h3, h4, h5, h6⟩⟩ :=
        hE.step hP hH t p (hE.bounded hP hH hN t)
      · exact h.trans (ih b (by omega))
      · have hl : l = c := Outcome.ok.inj (h1.symm.trans ((congrArg P.retrieve (ih b (by omega))).trans hc))
        have := hE.bounded hP hH hN t i h2 q d h3
        rw [hl] at h5
        omega

/-- C158 refuted: a daemon that has ended stays so, and its node keeps its chain. -/
theorem C158_ended_for_good_neg (hE : ChainEvolves N) {p : Peer} {t : ℕ} (h : (N t p).ended = true) {u : ℕ}
    (hu : t ≤ u) : N u p = N t p := by
  induction u, hu using Nat.le_induction with
  | base => rfl
  | succ u hu ih =>
    rcases hE u p with h1 | ⟨b, v, h1, h2, -, _, _, _, _, -, h3, -⟩
    · exact h1.trans ih
    · have := (h3 u h1 h2).1
      rw [ih, h] at this
      cases this

end

section examples

attribute [local instance] toyCurve toySha

/-- A node that asks the given node, which keeps its chain, does one round and ends. -/
theorem one_round {l c : Chain} {s : Chain} {r : RoundEnd} {p q : Peer} (hpq : q ≠ p)
    (h : chainRound toyChainPort (.ok (some [q])) (fun _ => .ok ⟨.ok c, fun i => .ok (chainAt c i c.total)⟩) l = (r, s))
    (hr : r ≠ .again) :
    ∃ N : ChainCourse toyChainPort, ChainEvolves N ∧ N 0 p = ⟨l, false⟩ ∧ N 1 p = ⟨s, true⟩ ∧ ∀ t x, x ≠ p → N t x = ⟨c, false⟩ := by
  classical
  refine ⟨fun t x => if x = p then (if t = 0 then ⟨l, false⟩ else ⟨s, true⟩) else ⟨c, false⟩, ?_,
    by simp, by simp, fun t x hx => by simp [hx]⟩
  intro t x
  by_cases hx : x = p
  · subst hx
    cases t with
    | succ t => left; simp
    | zero =>
      right
      refine ⟨0, 0, le_rfl, le_rfl, le_rfl, .ok (some [q]), fun y => if y = q then
        .ok ⟨.ok c, fun i => .ok (chainAt c i c.total)⟩ else .err "", r, s, ?_, ?_, ?_, by simp; rfl, by simp [hr]⟩
      · intro y app hy
        dsimp only at hy
        split at hy
        · rename_i e
          cases hy
          subst e
          refine ⟨⟨0, le_rfl, le_rfl, by simp [hpq]; rfl⟩, fun i d hd => ?_⟩
          cases hd
          rfl
        · cases hy
      · intro j _ hj
        obtain rfl : j = 0 := by omega
        exact ⟨by simp, .inl rfl⟩
      · refine Eq.trans ?_ h
        simp [chainRound, pickChain]
  · left
    simp [hx]

/-- C158: a node of height 2 asks one of height 5; it takes over links up to height 4. -/
example : ∃ (N : ChainCourse toyChainPort) (c c' : Chain) (p : Peer), ChainEvolves N ∧ AtMost N 5 ∧
    (N 0 p).Has c ∧ c.height = 2 ∧ (N 1 p).Has c' ∧ c'.height = 4 := by
  obtain ⟨b, r, k, m, c, -⟩ := toy_chain
  have hres : chainRound toyChainPort (.ok (some [⟨[1], 1, true, false⟩]))
      (fun _ => .ok ⟨.ok (chainAt c 5 9), fun i => .ok (chainAt (chainAt c 5 9) i (chainAt c 5 9).total)⟩)
      (chainAt c 2 4) = (.returns (.ok ()), chainAt c 4 7) := by
    have e1 : toInt 5 = 5 := by decide
    have e3 : toInt (5 - 2) = 3 := by decide
    have e : pickChain (chainAt c 2 4).total
        (fun _ => .ok ⟨.ok (chainAt c 5 9), fun i => .ok (chainAt (chainAt c 5 9) i (chainAt c 5 9).total)⟩)
        [⟨[1], 1, true, false⟩] (0, none) = .ok (some (chainAt c 5 9,
          ⟨.ok (chainAt c 5 9), fun i => .ok (chainAt (chainAt c 5 9) i (chainAt c 5 9).total)⟩)) := by
      simp [pickChain, chainAt, e1]
    have l : (toInt ((chainAt c 5 9).height - (chainAt c 2 4).height)).toNat = 3 := by
      rw [show (chainAt c 5 9).height - (chainAt c 2 4).height = 5 - 2 from rfl, e3]
      rfl
    unfold chainRound
    simp only [show toyChainPort.retrieve (chainAt c 2 4) = .ok (chainAt c 2 4) from rfl,
      Outcome.deref, Outcome.bind_ok, e, l]
    rfl
  obtain ⟨N, h1, h2, h3, h4⟩ := one_round (p := ⟨[1], 2, true, false⟩) (by decide) hres (by simp)
  refine ⟨N, chainAt c 2 4, chainAt c 4 7, _, h1, fun x d hd => ?_, by rw [h2]; rfl, rfl, by rw [h3]; rfl, rfl⟩
  by_cases hx : x = ⟨[1], 2, true, false⟩
  · rw [hx, h2] at hd
    cases hd
    show (2 : UInt64).toNat ≤ 5
    decide
  · rw [h4 0 x hx] at hd
    cases hd
    show (5 : UInt64).toNat ≤ 5
    decide

end examples

end Verif
