import Verif.Model.Daemons
import Verif.Props.Peers
import Verif.Props.Accounts
import Verif.Props.Entities

/-!
# Daemons: C64, C65, C97–C100
-/

namespace Verif

/-! ## C65 -/

section
variable {S : Type} (round : S → RoundEnd × S)

theorem daemonStep_started {d : DaemonState S} (h : d.isStarted = true) (e : DaemonEvent) :
    (daemonStep round d e).isStarted = true := by
  cases e with
  | stop => rfl
  | tick =>
    unfold daemonStep
    rcases d.returned with _ | o
    · simp only [h, Bool.not_true, Bool.false_eq_true, if_false]
      rcases round d.state with ⟨_ | o, s⟩ <;> rfl
    · exact h

/-- C65 refuted: calls of `Stop` have no effect at all: in every schedule, a started daemon does what
it does in the schedule without them. -/
theorem C65_stop_has_no_effect_neg {d : DaemonState S} (h : d.isStarted = true)
    (es : List DaemonEvent) :
    daemonRun round d es = daemonRun round d (es.filter (· ≠ .stop)) := by
  unfold daemonRun
  induction es generalizing d with
  | nil => rfl
  | cons e es ih =>
    cases e with
    | stop =>
      have : daemonStep round d .stop = d := by
        obtain ⟨b, s, r, x⟩ := d
        simp only at h
        subst h
        rfl
      simp [this, ih h]
    | tick => simp [ih (daemonStep_started round h .tick)]

/-- C65 refuted: as long as rounds end normally, every tick does a round, whenever and however often
`Stop` was called before. -/
theorem C65_every_tick_does_a_round_neg (hr : ∀ s, (round s).1 = .again) (s : S)
    (es : List DaemonEvent) :
    (daemonRun round (daemonStart s) es).rounds = es.count .tick ∧
      (daemonRun round (daemonStart s) es).returned = none := by
  unfold daemonRun
  suffices h : ∀ (d : DaemonState S), d.isStarted = true → d.returned = none →
      (es.foldl (daemonStep round) d).rounds = d.rounds + es.count .tick ∧
        (es.foldl (daemonStep round) d).returned = none by
    simpa [daemonStart] using h (daemonStart s) rfl rfl
  induction es with
  | nil => simp
  | cons e es ih =>
    intro d h1 h2
    cases e with
    | stop => simpa [daemonStep] using ih { d with isStarted := true } rfl h2
    | tick =>
      have e : daemonStep round d .tick = { d with state := (round d.state).2, rounds := d.rounds + 1 } := by
        have := hr d.state
        unfold daemonStep
        rw [h2]
        simp only [h1, Bool.not_true, Bool.false_eq_true, if_false]
        split
        · rename_i hq; simp [hq]
        · rename_i hq; rw [hq] at this; cases this
      have := ih (daemonStep round d .tick) (by rw [e]; exact h1) (by rw [e]; exact h2)
      rw [e] at this
      simp only [List.foldl_cons, e, List.count_cons_self, this, and_true]
      omega

/-- C65: whatever happens, a daemon that has not returned has done a round for each tick, and the next tick does one
more, even if this one makes it return. -/
theorem C65_rounds_are_counted (s : S) (es : List DaemonEvent)
    (h : (daemonRun round (daemonStart s) es).returned = none) :
    (daemonRun round (daemonStart s) es).rounds = es.count .tick ∧
    (daemonRun round (daemonStart s) (es ++ [.tick])).rounds = es.count .tick + 1 ∧
    (daemonRun round (daemonStart s) (es ++ [.tick])).state =
      (round (daemonRun round (daemonStart s) es).state).2 ∧
    ∀ o, (daemonRun round (daemonStart s) (es ++ [.tick])).returned = some o ↔
      (round (daemonRun round (daemonStart s) es).state).1 = .returns o := by
  have started : ∀ (es : List DaemonEvent) (d : DaemonState S), d.isStarted = true →
      (es.foldl (daemonStep round) d).isStarted = true ∧
        ((es.foldl (daemonStep round) d).returned = none →
          d.returned = none ∧ (es.foldl (daemonStep round) d).rounds = d.rounds + es.count .tick) := by
    intro es
    induction es with
    | nil => intro d hd; simp [hd]
    | cons e es ih =>
      intro d hd
      obtain ⟨b, st, r, x⟩ := d
      simp only at hd
      subst hd
      rw [List.foldl_cons]
      cases e with
      | stop =>
        have e1 : daemonStep round ⟨true, st, r, x⟩ .stop = ⟨true, st, r, x⟩ := by
          cases x <;> rfl
        rw [e1]
        simpa using ih _ rfl
      | tick =>
        cases x with
        | some o =>
          have e1 : daemonStep round ⟨true, st, r, some o⟩ .tick = ⟨true, st, r, some o⟩ := rfl
          rw [e1]
          obtain ⟨i1, i2⟩ := ih ⟨true, st, r, some o⟩ rfl
          exact ⟨i1, fun h => absurd (i2 h).1 (by simp)⟩
        | none =>
          cases hrd : round st with
          | mk w st' =>
            cases w with
            | again =>
              have e1 : daemonStep round ⟨true, st, r, none⟩ .tick = ⟨true, st', r + 1, none⟩ := by
                simp [daemonStep, hrd]
              rw [e1]
              obtain ⟨i1, i2⟩ := ih ⟨true, st', r + 1, none⟩ rfl
              refine ⟨i1, fun h => ⟨rfl, ?_⟩⟩
              rw [(i2 h).2]
              simp; omega
            | returns o =>
              have e1 : daemonStep round ⟨true, st, r, none⟩ .tick = ⟨true, st', r + 1, some o⟩ := by
                simp [daemonStep, hrd]
              rw [e1]
              obtain ⟨i1, i2⟩ := ih ⟨true, st', r + 1, some o⟩ rfl
              exact ⟨i1, fun h => absurd (i2 h).1 (by simp)⟩
  obtain ⟨h1, h2⟩ := started es (daemonStart s) rfl
  have hc : (daemonRun round (daemonStart s) es).rounds = es.count .tick := by
    have := (h2 h).2
    simpa [daemonStart, daemonRun] using this
  have ha : daemonRun round (daemonStart s) (es ++ [.tick]) =
      daemonStep round (daemonRun round (daemonStart s) es) .tick := by
    simp [daemonRun]
  refine ⟨hc, ?_⟩
  rw [ha, ← hc]
  change (daemonRun round (daemonStart s) es).isStarted = true at h1
  generalize daemonRun round (daemonStart s) es = d at *
  obtain ⟨b, st, r, x⟩ := d
  simp only at h h1
  subst h h1
  cases hrd : round st with
  | mk w st' => cases w <;> simp [daemonStep, hrd]

/-- C65: once `Start` has returned nothing happens any more. -/
theorem C65_returned_daemon_is_quiet {d : DaemonState S} (h : d.returned ≠ none)
    (es : List DaemonEvent) :
    (daemonRun round d es).state = d.state ∧ (daemonRun round d es).rounds = d.rounds ∧
      (daemonRun round d es).returned = d.returned := by
  unfold daemonRun
  induction es generalizing d with
  | nil => simp
  | cons e es ih =>
    have e' : (daemonStep round d e).state = d.state ∧ (daemonStep round d e).rounds = d.rounds ∧
        (daemonStep round d e).returned = d.returned := by
      cases e with
      | stop => exact ⟨rfl, rfl, rfl⟩
      | tick =>
        cases hr : d.returned with
        | none => exact absurd hr h
        | some o => simp [daemonStep, hr]
    have := ih (d := daemonStep round d e) (by rw [e'.2.2]; exact h)
    rw [List.foldl_cons, this.1, this.2.1, this.2.2]
    exact e'

end

/-! ## C64, C97, C98 -/

section
variable [C : Curve] {P : ChainPort}

/-- The peers whose chain is known, and their chains. -/
def Offers (remote : Peer → Outcome RemoteChain) (p : Peer) (c : Chain) (r : RemoteChain) : Prop :=
  remote p = .ok r ∧ r.retrieve = .ok c

theorem pickChain_ok {t : UInt64} {remote : Peer → Outcome RemoteChain} :
    ∀ {ps : List Peer} {b : Int × Option (Chain × RemoteChain)} {x : Option (Chain × RemoteChain)},
      pickChain t remote ps b = .ok x →
      (∀ p ∈ ps, ∃ c r, Offers remote p c r) ∧
      ∃ d, b.1 ≤ d ∧ ((d, x) = b ∨ b.1 < d ∧ ∃ p ∈ ps, ∃ c r, Offers remote p c r ∧ x = some (c, r) ∧
        d = toInt (c.total - t)) ∧
      ∀ p ∈ ps, ∀ c r, Offers remote p c r → toInt (c.total - t) ≤ d
  | [], b, x, h => by
    simp only [pickChain, Outcome.ok.injEq] at h
    subst h
    exact ⟨by simp, b.1, le_refl _, .inl rfl, by simp⟩
  | p :: ps, b, x, h => by
    simp only [pickChain, Outcome.bind_eq_ok] at h
    obtain ⟨r, hr, c, hc, h⟩ := h
    obtain ⟨h1, d, h2, h3, h4⟩ := pickChain_ok h
    have hof : Offers remote p c r := ⟨hr, hc⟩
    have huniq : ∀ c' r', Offers remote p c' r' → c' = c ∧ r' = r := by
      rintro c' r' ⟨e1, e2⟩
      obtain rfl := Outcome.ok.inj (e1.symm.trans hr)
      exact ⟨Outcome.ok.inj (e2.symm.trans hc), rfl⟩
    refine ⟨fun q hq => ?_, d, ?_, ?_, fun q hq c' r' ho => ?_⟩
    · rcases List.mem_cons.mp hq with rfl | hq
      · exact ⟨c, r, hof⟩
      · exact h1 q hq
    · split at h2 <;> (simp_all; try omega)
    · by_cases hlt : b.1 < toInt (c.total - t)
      · rw [if_pos hlt] at h2 h3
        simp only at h2 h3
        refine .inr ⟨by omega, ?_⟩
        rcases h3 with h3 | ⟨-, q, hq, c', r', ho, e1, e2⟩
        · simp only [Prod.mk.injEq] at h3
          exact ⟨p, by simp, c, r, hof, h3.2, h3.1⟩
        · exact ⟨q, by simp [hq], c', r', ho, e1, e2⟩
      · rw [if_neg hlt] at h2 h3
        rcases h3 with h3 | ⟨g, q, hq, c', r', ho, e1, e2⟩
        · exact .inl h3
        · exact .inr ⟨g, q, by simp [hq], c', r', ho, e1, e2⟩
    · rcases List.mem_cons.mp hq with rfl | hq
      · obtain ⟨rfl, rfl⟩ := huniq c' r' ho
        split at h2 <;> (simp_all; try omega)
      · exact h4 q hq c' r' ho

omit C in
theorem toInt_sub {a b : UInt64} (ha : a.toNat < 2 ^ 63) (hb : b.toNat < 2 ^ 63) :
    toInt (a - b) = (a.toNat : Int) - b.toNat := by
  have e := UInt64.toNat_sub a b
  by_cases h : b.toNat ≤ a.toNat
  · rw [toInt_of_lt (by rw [e]; omega), e]
    omega
  · unfold toInt
    rw [UInt64.toInt64, Int64.toInt]
    simp only [Int64.toBitVec]
    rw [BitVec.toInt_eq_toNat_cond, if_neg]
    · simp only [UInt64.toNat_toBitVec, e]; omega
    · simp only [UInt64.toNat_toBitVec, e]; omega

/-- The links are handed to the local application one after the other, and it accepts each. -/
inductive Upgrades (P : ChainPort) : List MinedLink → P.S → P.S → Prop where
  | nil (s : P.S) : Upgrades P [] s s
  | cons {s s' s'' : P.S} {l : MinedLink} {ls : List MinedLink} :
      P.upgrade s l = (.ok (), s') → Upgrades P ls s' s'' → Upgrades P (l :: ls) s s''

omit C in
theorem add_ofNat_succ (h : UInt64) (i : Nat) :
    h + UInt64.ofNat (i + 1) = h + 1 + UInt64.ofNat i := by
  rw [UInt64.ofNat_add, UInt64.add_assoc, UInt64.add_comm (UInt64.ofNat i)]
  rfl

theorem upgradeLoop_ok {app : RemoteChain} : ∀ {n : Nat} {h : UInt64} {s s' : P.S},
    upgradeLoop P app n h s = (.ok (), s') ↔
      ∃ cs : List Chain, cs.length = n ∧
        (∀ i c, cs[i]? = some c → app.atIndex (h + UInt64.ofNat i) = .ok c) ∧
        Upgrades P (cs.map Chain.head) s s'
  | 0, h, s, s' => by
    simp only [upgradeLoop, Prod.mk.injEq, true_and, List.length_eq_zero_iff]
    constructor
    · rintro rfl; exact ⟨[], rfl, by simp, .nil _⟩
    · rintro ⟨cs, rfl, -, hu⟩; cases hu; rfl
  | n + 1, h, s, s' => by
    rw [upgradeLoop]
    constructor
    · intro e
      split at e
      · simp at e
      · simp at e
      · rename_i c hc
        split at e
        · rename_i s₁ h1
          obtain ⟨cs, hl, hi, hu⟩ := upgradeLoop_ok.mp e
          refine ⟨c :: cs, by simp [hl], ?_, .cons h1 hu⟩
          intro i c' hi'
          cases i with
          | zero => simp at hi'; subst hi'; simpa using hc
          | succ i =>
            have := hi i c' (by simpa using hi')
            rw [← this]
            congr 1
            exact add_ofNat_succ h i
        · rename_i hr
          exact absurd e (by intro e; exact hr _ e)
    · rintro ⟨cs, hl, hi, hu⟩
      cases cs with
      | nil => simp at hl
      | cons c cs =>
        have h0 := hi 0 c rfl
        rw [show h + UInt64.ofNat 0 = h by simp] at h0
        cases hu with
        | cons h1 hu =>
          simp only [h0, h1]
          refine upgradeLoop_ok.mpr ⟨cs, by simpa using hl, fun i c' hc' => ?_, hu⟩
          rw [← hi (i + 1) c' (by simpa using hc')]
          congr 1
          exact (add_ofNat_succ h i).symm

/-- Every chain that is compared has a total below `2^63`. -/
def SmallTotals (l : Chain) (ps : List Peer) (remote : Peer → Outcome RemoteChain) : Prop :=
  l.total.toNat < 2 ^ 63 ∧ ∀ p ∈ ps, ∀ c r, Offers remote p c r → c.total.toNat < 2 ^ 63

/-- C64: a round in which every peer answers does nothing and goes on waiting exactly when no peer has
more transactions; otherwise it takes a peer with the most transactions, and ends. -/
theorem C64_best_peer_chosen {s : P.S} {l : Chain} {ps : List Peer}
    {remote : Peer → Outcome RemoteChain} (hl : P.retrieve s = .ok l)
    (hp : ∀ p ∈ ps, ∃ c r, Offers remote p c r) (hs : SmallTotals l ps remote) :
    (chainRound P (.ok (some ps)) remote s = (.again, s) ∧
      ∀ p ∈ ps, ∀ c r, Offers remote p c r → c.total ≤ l.total) ∨
    ∃ p ∈ ps, ∃ c r, Offers remote p c r ∧ l.total < c.total ∧
      (∀ q ∈ ps, ∀ c' r', Offers remote q c' r' → c'.total ≤ c.total) ∧
      chainRound P (.ok (some ps)) remote s =
        (.returns (upgradeLoop P r (toInt (c.height - l.height)).toNat l.height s).1,
          (upgradeLoop P r (toInt (c.height - l.height)).toNat l.height s).2) := by
  obtain ⟨x, hx⟩ : ∃ x, pickChain l.total remote ps (0, none) = .ok x := by
    generalize ((0 : Int), (none : Option (Chain × RemoteChain))) = b
    clear hs
    induction ps generalizing b with
    | nil => exact ⟨_, rfl⟩
    | cons p ps ih =>
      obtain ⟨c, r, h1, h2⟩ := hp p (by simp)
      simp only [pickChain, h1, h2, Outcome.bind_ok]
      exact ih (fun q hq => hp q (List.mem_cons_of_mem p hq)) _
  obtain ⟨-, d, h1, h2, h3⟩ := pickChain_ok hx
  rcases h2 with h2 | ⟨h2, p, hpm, c, r, ho, rfl, rfl⟩
  · simp only [Prod.mk.injEq] at h2
    obtain ⟨rfl, rfl⟩ := h2
    refine .inl ⟨?_, fun p hpm c r ho => ?_⟩
    · simp [chainRound, hl, hx, Outcome.deref]
    · have := h3 p hpm c r ho
      rw [toInt_sub (hs.2 p hpm c r ho) hs.1] at this
      rw [UInt64.le_iff_toNat_le]
      omega
  · refine .inr ⟨p, hpm, c, r, ho, ?_, fun q hq c' r' ho' => ?_, ?_⟩
    · rw [toInt_sub (hs.2 p hpm c r ho) hs.1] at h2
      rw [UInt64.lt_iff_toNat_lt]
      simp only at h2
      omega
    · have := h3 q hq c' r' ho'
      rw [toInt_sub (hs.2 p hpm c r ho) hs.1, toInt_sub (hs.2 q hq c' r' ho') hs.1] at this
      rw [UInt64.le_iff_toNat_le]
      omega
    · simp [chainRound, hl, hx, Outcome.deref]

/-- What a round that ends well has done: nothing, or it took a peer with the most transactions, asked
it for the indices from the local height to one below the remote height, and handed over the heads. -/
theorem C64_round_applies_partial {s s' : P.S} {l : Chain} {ps : List Peer}
    {remote : Peer → Outcome RemoteChain} (hl : P.retrieve s = .ok l)
    (hp : ∀ p ∈ ps, ∃ c r, Offers remote p c r) (hs : SmallTotals l ps remote)
    (hh : l.height.toNat < 2 ^ 63 ∧ ∀ p ∈ ps, ∀ c r, Offers remote p c r → c.height.toNat < 2 ^ 63)
    (h : chainRound P (.ok (some ps)) remote s = (.returns (.ok ()), s')) :
    ∃ p ∈ ps, ∃ c r, Offers remote p c r ∧ l.total < c.total ∧
      (∀ q ∈ ps, ∀ c' r', Offers remote q c' r' → c'.total ≤ c.total) ∧
      ∃ cs : List Chain, cs.length = c.height.toNat - l.height.toNat ∧
        (∀ i d, cs[i]? = some d → r.atIndex (l.height + UInt64.ofNat i) = .ok d) ∧
        Upgrades P (cs.map Chain.head) s s' := by
  rcases C64_best_peer_chosen hl hp hs with ⟨h1, -⟩ | ⟨p, hpm, c, r, ho, h1, h2, h3⟩
  · rw [h1] at h; cases h
  · refine ⟨p, hpm, c, r, ho, h1, h2, ?_⟩
    rw [h3] at h
    simp only [Prod.mk.injEq, RoundEnd.returns.injEq] at h
    obtain ⟨cs, e1, e2, e3⟩ := upgradeLoop_ok.mp (Prod.ext h.1 h.2)
    refine ⟨cs, ?_, e2, e3⟩
    rw [toInt_sub (hh.2 p hpm c r ho) hh.1] at e1
    omega

theorem upgrades_last {P : ChainPort} (hP : P.Lawful) {ls : List MinedLink} {s s' : P.S}
    (h : Upgrades P ls s s') : ∀ x ∈ ls.getLast?, ∃ c, P.retrieve s' = .ok c ∧ c.head = x := by
  induction h with
  | nil => simp
  | @cons s s₁ s₂ l ls h1 h2 ih =>
    intro x hx
    cases ls with
    | nil =>
      simp at hx
      subst hx
      cases h2
      exact hP.upgrade_ok h1
    | cons m ls => exact ih x (by simpa [List.getLast?_cons_cons] using hx)

/-- C64 refuted: a synchronisation that ends well with a higher remote chain leaves the local chain one
below it: the remote head is not applied. The remote node answers for an index with the chain of that
height. -/
theorem C64_one_below_the_remote_head_neg (hP : P.Lawful) {s s' : P.S} {l : Chain} {ps : List Peer}
    {remote : Peer → Outcome RemoteChain} (hl : P.retrieve s = .ok l)
    (hp : ∀ p ∈ ps, ∃ c r, Offers remote p c r) (hs : SmallTotals l ps remote)
    (hh : l.height.toNat < 2 ^ 63 ∧ ∀ p ∈ ps, ∀ c r, Offers remote p c r →
      l.height < c.height ∧ c.height.toNat < 2 ^ 63)
    (hr : ∀ p ∈ ps, ∀ c r, Offers remote p c r → ∀ i d, r.atIndex i = .ok d → d.height = i)
    (h : chainRound P (.ok (some ps)) remote s = (.returns (.ok ()), s')) :
    ∃ p ∈ ps, ∃ c r l', Offers remote p c r ∧
      (∀ q ∈ ps, ∀ c' r', Offers remote q c' r' → c'.total ≤ c.total) ∧
      P.retrieve s' = .ok l' ∧ l'.height.toNat + 1 = c.height.toNat ∧ l'.head ≠ c.head := by
  obtain ⟨p, hpm, c, r, ho, h1, h2, cs, e1, e2, e3⟩ := C64_round_applies_partial hl hp hs
    ⟨hh.1, fun p hpm c r ho => (hh.2 p hpm c r ho).2⟩ h
  have hlt := UInt64.lt_iff_toNat_lt.mp (hh.2 p hpm c r ho).1
  have hcs : cs ≠ [] := by rintro rfl; simp at e1; omega
  obtain ⟨ds, d, rfl⟩ : ∃ ds d, cs = ds ++ [d] := ⟨_, _, (List.dropLast_append_getLast hcs).symm⟩
  have hd := hr p hpm c r ho _ _ (e2 ds.length d (by simp))
  obtain ⟨l', h3, h4⟩ := upgrades_last hP e3 d.head (by simp)
  have e4 : l'.height = d.height := by unfold Chain.height; rw [h4]
  have e5 : l'.height.toNat + 1 = c.height.toNat := by
    have hlen : ds.length = c.height.toNat - l.height.toNat - 1 := by simp at e1; omega
    have := c.height.toNat_lt
    rw [e4, hd, UInt64.toNat_add, UInt64.toNat_ofNat']
    rw [Nat.mod_eq_of_lt (a := ds.length) (by omega), Nat.mod_eq_of_lt (by omega)]
    omega
  refine ⟨p, hpm, c, r, l', ho, h2, h3, e5, fun e => ?_⟩
  have : l'.height = c.height := by unfold Chain.height; rw [e]
  rw [this] at e5
  omega

/-- C64 refuted: the first link that is handed over is the one of the remote chain at the local height,
not the one above it. -/
theorem C64_local_height_applied_again_neg {s s' : P.S} {l : Chain} {ps : List Peer}
    {remote : Peer → Outcome RemoteChain} (hl : P.retrieve s = .ok l)
    (hp : ∀ p ∈ ps, ∃ c r, Offers remote p c r) (hs : SmallTotals l ps remote)
    (hh : l.height.toNat < 2 ^ 63 ∧ ∀ p ∈ ps, ∀ c r, Offers remote p c r →
      l.height < c.height ∧ c.height.toNat < 2 ^ 63)
    (h : chainRound P (.ok (some ps)) remote s = (.returns (.ok ()), s')) :
    ∃ p ∈ ps, ∃ c r d s₁, Offers remote p c r ∧ r.atIndex l.height = .ok d ∧
      P.upgrade s d.head = (.ok (), s₁) := by
  obtain ⟨p, hpm, c, r, ho, h1, h2, cs, e1, e2, e3⟩ := C64_round_applies_partial hl hp hs
    ⟨hh.1, fun p hpm c r ho => (hh.2 p hpm c r ho).2⟩ h
  have hlt := UInt64.lt_iff_toNat_lt.mp (hh.2 p hpm c r ho).1
  cases cs with
  | nil => simp at e1; omega
  | cons d cs =>
    have := e2 0 d rfl
    rw [show l.height + UInt64.ofNat 0 = l.height by simp] at this
    cases e3 with
    | cons h3 _ => exact ⟨p, hpm, c, r, d, _, ho, this, h3⟩

/-- C64 refuted: a peer with more transactions in a chain that is not higher ends the daemon without an
upgrade. -/
theorem C64_not_higher_nothing_applied_neg {s : P.S} {l : Chain} {ps : List Peer}
    {remote : Peer → Outcome RemoteChain} (hl : P.retrieve s = .ok l)
    (hp : ∀ p ∈ ps, ∃ c r, Offers remote p c r) (hs : SmallTotals l ps remote)
    (hh : l.height.toNat < 2 ^ 63 ∧ ∀ p ∈ ps, ∀ c r, Offers remote p c r → c.height ≤ l.height)
    (hm : ∃ p ∈ ps, ∃ c r, Offers remote p c r ∧ l.total < c.total) :
    chainRound P (.ok (some ps)) remote s = (.returns (.ok ()), s) := by
  rcases C64_best_peer_chosen hl hp hs with ⟨-, h1⟩ | ⟨p, hpm, c, r, ho, -, -, h3⟩
  · obtain ⟨p, hpm, c, r, ho, h⟩ := hm
    have := h1 p hpm c r ho
    rw [UInt64.lt_iff_toNat_lt] at h
    rw [UInt64.le_iff_toNat_le] at this
    omega
  · have := UInt64.le_iff_toNat_le.mp (hh.2 p hpm c r ho)
    rw [h3, toInt_sub (by omega) hh.1, show ((c.height.toNat : Int) - l.height.toNat).toNat = 0 by omega]
    rfl

/-- C64 refuted: a peer that is ahead by `2^63` transactions or more is not seen as ahead. -/
theorem C64_far_ahead_ignored_neg {s : P.S} {l : Chain} {ps : List Peer}
    {remote : Peer → Outcome RemoteChain} (hl : P.retrieve s = .ok l)
    (hp : ∀ p ∈ ps, ∃ c r, Offers remote p c r)
    (hf : ∀ p ∈ ps, ∀ c r, Offers remote p c r → l.total.toNat + 2 ^ 63 ≤ c.total.toNat) :
    chainRound P (.ok (some ps)) remote s = (.again, s) := by
  have hx : pickChain l.total remote ps (0, none) = .ok none := by
    induction ps with
    | nil => rfl
    | cons p ps ih =>
      obtain ⟨c, r, h1, h2⟩ := hp p (by simp)
      have h3 := hf p (by simp) c r ⟨h1, h2⟩
      have h4 : toInt (c.total - l.total) < 0 := by
        apply toInt_of_ge
        have := c.total.toNat_lt
        rw [UInt64.toNat_sub]
        omega
      simp only [pickChain, h1, h2, Outcome.bind_ok]
      rw [if_neg (by omega)]
      exact ih (fun q hq => hp q (List.mem_cons_of_mem p hq))
        (fun q hq => hf q (List.mem_cons_of_mem p hq))
  simp [chainRound, hl, hx, Outcome.deref]

/-! ## C97 -/

/-- The rounds of the chain daemon; peers and remote nodes may answer differently in every round. -/
def chainRounds (P : ChainPort) (peers : Nat → Outcome (Option (List Peer)))
    (remote : Nat → Peer → Outcome RemoteChain) (x : Nat × P.S) : RoundEnd × (Nat × P.S) :=
  let r := chainRound P (peers x.1) (remote x.1) x.2
  (r.1, (x.1 + 1, r.2))

theorem chainRound_again {peers : Outcome (Option (List Peer))}
    {remote : Peer → Outcome RemoteChain} {s : P.S}
    (h : (chainRound P peers remote s).1 = .again) : (chainRound P peers remote s).2 = s := by
  unfold chainRound at h ⊢
  split <;> simp_all

/-- C97 refuted: as long as the chain daemon runs, it has changed nothing. -/
theorem C97_running_daemon_changed_nothing_neg (peers : Nat → Outcome (Option (List Peer)))
    (remote : Nat → Peer → Outcome RemoteChain) (s : P.S) (es : List DaemonEvent)
    (h : (daemonRun (chainRounds P peers remote) (daemonStart (0, s)) es).returned = none) :
    (daemonRun (chainRounds P peers remote) (daemonStart (0, s)) es).state.2 = s := by
  unfold daemonRun at *
  suffices hg : ∀ d : DaemonState (Nat × P.S), (d.returned = none → d.state.2 = s) →
      (es.foldl (daemonStep (chainRounds P peers remote)) d).returned = none →
      (es.foldl (daemonStep (chainRounds P peers remote)) d).state.2 = s from
    hg _ (fun _ => rfl) h
  clear h
  induction es with
  | nil => exact fun d h1 h2 => h1 h2
  | cons e es ih =>
    intro d h1 h2
    refine ih _ ?_ h2
    cases e with
    | stop => exact h1
    | tick =>
      unfold daemonStep
      rcases hd : d.returned with _ | o
      · simp only
        split
        · rw [hd]; exact fun _ => h1 hd
        · split
          · rename_i x hx
            intro _
            have e1 : (chainRounds P peers remote d.state).1 = .again := by rw [hx]
            have e2 : (chainRounds P peers remote d.state).2 = x := by rw [hx]
            simp only
            rw [← e2]
            simp only [chainRounds] at e1 ⊢
            rw [chainRound_again e1]
            exact h1 hd
          · simp
      · simp [hd]

/-- C97 refuted: after the first round that changed the local chain nothing changes any more, whatever
the peers offer later. -/
theorem C97_synchronises_once_neg (peers : Nat → Outcome (Option (List Peer)))
    (remote : Nat → Peer → Outcome RemoteChain) (s : P.S) (es es' : List DaemonEvent)
    (h : (daemonRun (chainRounds P peers remote) (daemonStart (0, s)) es).state.2 ≠ s) :
    (daemonRun (chainRounds P peers remote) (daemonStart (0, s)) (es ++ es')).state.2 =
      (daemonRun (chainRounds P peers remote) (daemonStart (0, s)) es).state.2 := by
  have h1 : (daemonRun (chainRounds P peers remote) (daemonStart (0, s)) es).returned ≠ none :=
    fun e => h (C97_running_daemon_changed_nothing_neg peers remote s es e)
  have h2 := (C65_returned_daemon_is_quiet (chainRounds P peers remote) h1 es').1
  rw [show daemonRun (chainRounds P peers remote) (daemonStart (0, s)) (es ++ es') =
    daemonRun (chainRounds P peers remote)
      (daemonRun (chainRounds P peers remote) (daemonStart (0, s)) es) es' by
      simp [daemonRun, List.foldl_append], h2]

/-! ## C98 -/

/-- C98 refuted: one peer that cannot be asked ends the chain daemon with an error or a panic, before
anything is upgraded. -/
theorem C98_unreachable_peer_ends_chain_daemon_neg {s : P.S} {l : Chain} {ps : List Peer}
    {remote : Peer → Outcome RemoteChain} (hl : P.retrieve s = .ok l) {p : Peer} (hp : p ∈ ps)
    (hx : ∀ c r, ¬ Offers remote p c r) :
    ∃ o, o ≠ .ok () ∧ chainRound P (.ok (some ps)) remote s = (.returns o, s) := by
  have hn : ∀ x, pickChain l.total remote ps (0, none) ≠ .ok x := by
    intro x h
    obtain ⟨c, r, ho⟩ := (pickChain_ok h).1 p hp
    exact hx c r ho
  unfold chainRound
  simp only [hl, Outcome.deref, Outcome.bind_ok]
  cases e : pickChain l.total remote ps (0, none) with
  | ok x => exact absurd e (hn x)
  | err m => exact ⟨.err m, by simp, rfl⟩
  | crash c => exact ⟨.crash c, by simp, rfl⟩

end

theorem gatherPeers_ok {remote : Peer → Outcome (Option (List Peer))} :
    ∀ {ps all : List Peer}, gatherPeers remote ps = .ok all →
      (∀ p ∈ ps, ∃ rs, remote p = .ok (some rs)) ∧
      ∀ q, q ∈ all ↔ q ∈ ps ∨ ∃ p ∈ ps, ∃ rs, remote p = .ok (some rs) ∧ q ∈ rs
  | [], all, h => by
    simp only [gatherPeers, Outcome.ok.injEq] at h
    subst h
    simp
  | p :: ps, all, h => by
    simp only [gatherPeers, Outcome.bind_eq_ok] at h
    obtain ⟨t, h1, rs, h2, rest, h3, h4⟩ := h
    have h2 : t = some rs := by cases t <;> simp [Outcome.deref] at h2 ⊢; exact h2
    subst h2
    obtain ⟨g1, g2⟩ := gatherPeers_ok h3
    simp only [Outcome.ok.injEq] at h4
    subst h4
    refine ⟨?_, fun q => ?_⟩
    · intro q hq
      rcases List.mem_cons.mp hq with rfl | hq
      · exact ⟨rs, h1⟩
      · exact g1 q hq
    · simp only [List.mem_cons, List.mem_append, g2, List.cons_append]
      constructor
      · rintro (rfl | h | h | ⟨p', hp', rs', h5, h6⟩)
        · exact .inl (.inl rfl)
        · exact .inr ⟨p, .inl rfl, rs, h1, h⟩
        · exact .inl (.inr h)
        · exact .inr ⟨p', .inr hp', rs', h5, h6⟩
      · rintro ((rfl | h) | ⟨p', rfl | hp', rs', h5, h6⟩)
        · exact .inl rfl
        · exact .inr (.inr (.inl h))
        · rw [h1] at h5
          simp only [Outcome.ok.injEq, Option.some.injEq] at h5
          subst h5
          exact .inr (.inl h6)
        · exact .inr (.inr (.inr ⟨p', hp', rs', h5, h6⟩))

/-- C98 refuted: one peer that does not answer with a list ends the peer daemon, before anything is
saved. -/
theorem C98_unreachable_peer_ends_peer_daemon_neg {P : PeersPort} {o : MapOrder} {s : P.S}
    {ps : List Peer} {remote : Peer → Outcome (Option (List Peer))}
    (hl : P.retrieve s = .ok (some ps)) {p : Peer} (hp : p ∈ ps) (hx : ∀ rs, remote p ≠ .ok (some rs)) :
    ∃ r, r ≠ .ok () ∧ peersRound P o remote s = (.returns r, s) := by
  have hn : ∀ x, gatherPeers remote ps ≠ .ok x := by
    intro x h
    obtain ⟨rs, ho⟩ := (gatherPeers_ok h).1 p hp
    exact hx rs ho
  unfold peersRound
  simp only [hl, Outcome.deref, Outcome.bind_ok]
  cases e : gatherPeers remote ps with
  | ok x => exact absurd e (hn x)
  | err m => exact ⟨.err m, by simp, rfl⟩
  | crash c => exact ⟨.crash c, by simp, rfl⟩

/-! ## C99 -/

section
variable {P : PeersPort} {o : MapOrder}

/-- The stored list holds the peer. -/
def Knows (P : PeersPort) (s : P.S) (p : Peer) : Prop := ∃ ps, P.retrieve s = .ok (some ps) ∧ p ∈ ps

/-- All peers of the stored list, if there is one, come from the builder. -/
def KnowsBuilt (P : PeersPort) (s : P.S) : Prop := ∀ p, Knows P s p → p.Built

/-- C99: a round that ends well stores the known peers and the peers they named, each once. -/
theorem C99_round (hP : P.Lawful) {s s' : P.S} {ps : List Peer}
    {remote : Peer → Outcome (Option (List Peer))} (hl : P.retrieve s = .ok (some ps))
    (hb : ∀ p ∈ ps, p.Built) (hr : ∀ p ∈ ps, ∀ rs, remote p = .ok (some rs) → ∀ q ∈ rs, q.Built)
    (h : peersRound P o remote s = (.again, s')) :
    ∃ qs, P.retrieve s' = .ok (some qs) ∧ qs.Nodup ∧
      ∀ q, q ∈ qs ↔ q ∈ ps ∨ ∃ p ∈ ps, ∃ rs, remote p = .ok (some rs) ∧ q ∈ rs := by
  unfold peersRound at h
  simp only [hl, Outcome.deref, Outcome.bind_ok] at h
  split at h
  · simp at h
  · simp at h
  · rename_i all hall
    obtain ⟨-, g2⟩ := gatherPeers_ok hall
    have hball : ∀ p ∈ all, p.Built := by
      intro p hp
      rcases (g2 p).mp hp with h1 | ⟨p', hp', rs, h1, h2⟩
      · exact hb p h1
      · exact hr p' hp' rs h1 p h2
    obtain ⟨k1, k2⟩ := C63_builder_keeps_distinct o hball
    split at h
    · rename_i s₁ hs
      simp only [Prod.mk.injEq, true_and] at h
      subst h
      have hk := hP.save_ok (s := s) (ps := peersNow o all) (by rw [hs])
      rw [hs] at hk
      exact ⟨_, hk, k1, fun q => (k2 q).trans (g2 q)⟩
    · simp at h

/-- The rounds of the peer daemon; remote nodes may answer differently in every round. -/
def peersRounds (P : PeersPort) (o : MapOrder) (remote : Nat → Peer → Outcome (Option (List Peer)))
    (x : Nat × P.S) : RoundEnd × (Nat × P.S) :=
  let r := peersRound P o (remote x.1) x.2
  (r.1, (x.1 + 1, r.2))

/-- A round that does not end well changes nothing. -/
theorem peersRound_returns (hP : P.Lawful) {s : P.S} {remote : Peer → Outcome (Option (List Peer))}
    (h : (peersRound P o remote s).1 ≠ .again) : (peersRound P o remote s).2 = s := by
  unfold peersRound at h ⊢
  split
  · rfl
  · rfl
  · rename_i all _
    split
    · rename_i e1 _ _ e2
      simp [e1, e2] at h
    · rename_i r s' hne e2
      have := hP.save_fails (s := s) (ps := peersNow o all) (by
        rw [e2]
        intro hr
        exact hne (by simpa using hr))
      rw [e2] at this
      exact this

theorem peersRound_step (hP : P.Lawful) {s : P.S} {remote : Peer → Outcome (Option (List Peer))}
    (hb : KnowsBuilt P s) (hr : ∀ p rs, remote p = .ok (some rs) → ∀ q ∈ rs, q.Built) :
    KnowsBuilt P (peersRound P o remote s).2 ∧
    (∀ p, Knows P s p → Knows P (peersRound P o remote s).2 p) ∧
    ∀ q, Knows P (peersRound P o remote s).2 q →
      Knows P s q ∨ ∃ p rs, Knows P s p ∧ remote p = .ok (some rs) ∧ q ∈ rs := by
  by_cases h : (peersRound P o remote s).1 = .again
  · obtain ⟨ps, hl⟩ : ∃ ps, P.retrieve s = .ok (some ps) := by
      unfold peersRound at h
      rcases hl : P.retrieve s with (_ | ps) | m | c
      · simp [hl, Outcome.deref] at h
      · exact ⟨ps, rfl⟩
      · simp [hl] at h
      · simp [hl] at h
    obtain ⟨qs, h1, -, h3⟩ := C99_round hP hl (fun p hp => hb p ⟨ps, hl, hp⟩)
      (fun p _ rs h => hr p rs h) (Prod.ext h rfl)
    have hk : ∀ q, Knows P (peersRound P o remote s).2 q ↔ q ∈ qs := by
      intro q
      constructor
      · rintro ⟨qs', e, hq⟩
        rw [h1] at e
        simp only [Outcome.ok.injEq, Option.some.injEq] at e
        exact e ▸ hq
      · exact fun hq => ⟨qs, h1, hq⟩
    have hk0 : ∀ q, Knows P s q ↔ q ∈ ps := by
      intro q
      constructor
      · rintro ⟨qs', e, hq⟩
        rw [hl] at e
        simp only [Outcome.ok.injEq, Option.some.injEq] at e
        exact e ▸ hq
      · exact fun hq => ⟨ps, hl, hq⟩
    have h4 : ∀ q, Knows P (peersRound P o remote s).2 q ↔
        Knows P s q ∨ ∃ p rs, Knows P s p ∧ remote p = .ok (some rs) ∧ q ∈ rs := by
      intro q
      rw [hk, h3, hk0]
      constructor
      · rintro (h | ⟨p, hp, rs, e, hq⟩)
        · exact .inl h
        · exact .inr ⟨p, rs, (hk0 p).mpr hp, e, hq⟩
      · rintro (h | ⟨p, rs, hp, e, hq⟩)
        · exact .inl h
        · exact .inr ⟨p, (hk0 p).mp hp, rs, e, hq⟩
    refine ⟨fun p hp => ?_, fun p hp => (h4 p).mpr (.inl hp), fun q hq => (h4 q).mp hq⟩
    rcases (h4 p).mp hp with h | ⟨p', rs, -, e, hq⟩
    · exact hb p h
    · exact hr p' rs e p hq
  · rw [peersRound_returns hP h]
    exact ⟨hb, fun _ h => h, fun _ h => .inl h⟩

/-- The peers that can be heard of: the known ones, and those named by one that can be heard of. -/
inductive HeardOf (P : PeersPort) (remote : Nat → Peer → Outcome (Option (List Peer))) (s : P.S) :
    Peer → Prop where
  | known {p : Peer} : Knows P s p → HeardOf P remote s p
  | named {p q : Peer} {k : Nat} {rs : List Peer} : HeardOf P remote s p →
      remote k p = .ok (some rs) → q ∈ rs → HeardOf P remote s q

/-- C99: over any number of rounds, with whatever answers, a known peer stays known, and no peer
appears that was not named by one heard of before. -/
theorem C99_any_schedule (hP : P.Lawful) {s : P.S}
    {remote : Nat → Peer → Outcome (Option (List Peer))} (hb : KnowsBuilt P s)
    (hr : ∀ k p rs, remote k p = .ok (some rs) → ∀ q ∈ rs, q.Built) (es : List DaemonEvent) :
    (∀ p, Knows P s p →
      Knows P (daemonRun (peersRounds P o remote) (daemonStart (0, s)) es).state.2 p) ∧
    ∀ q, Knows P (daemonRun (peersRounds P o remote) (daemonStart (0, s)) es).state.2 q →
      HeardOf P remote s q := by
  unfold daemonRun
  suffices hg : ∀ d : DaemonState (Nat × P.S), KnowsBuilt P d.state.2 →
      (∀ q, Knows P d.state.2 q → HeardOf P remote s q) →
      (∀ p, Knows P d.state.2 p →
        Knows P (es.foldl (daemonStep (peersRounds P o remote)) d).state.2 p) ∧
      ∀ q, Knows P (es.foldl (daemonStep (peersRounds P o remote)) d).state.2 q →
        HeardOf P remote s q from
    hg (daemonStart (0, s)) hb (fun q hq => .known hq)
  induction es with
  | nil => exact fun d _ h => ⟨fun _ h => h, h⟩
  | cons e es ih =>
    intro d h1 h2
    cases e with
    | stop => exact ih { d with isStarted := true } h1 h2
    | tick =>
      have hstep : (daemonStep (peersRounds P o remote) d .tick).state = d.state ∨
          (daemonStep (peersRounds P o remote) d .tick).state =
            (d.state.1 + 1, (peersRound P o (remote d.state.1) d.state.2).2) := by
        unfold daemonStep
        rcases d.returned with _ | r
        · simp only
          split
          · exact .inl rfl
          · right
            split
            · rename_i x hx
              have := congrArg Prod.snd hx
              exact this.symm
            · rename_i r x hx
              have := congrArg Prod.snd hx
              exact this.symm
        · exact .inl rfl
      rw [List.foldl_cons]
      rcases hstep with hstep | hstep
      · have := ih (daemonStep (peersRounds P o remote) d .tick) (by rw [hstep]; exact h1)
          (by rw [hstep]; exact h2)
        rw [hstep] at this
        exact this
      · obtain ⟨k1, k2, k3⟩ := peersRound_step (o := o) hP h1 (hr d.state.1)
        have := ih (daemonStep (peersRounds P o remote) d .tick) (by rw [hstep]; exact k1)
          (by
            rw [hstep]
            intro q hq
            rcases k3 q hq with h | ⟨p, rs, hp, e, hq⟩
            · exact h2 q h
            · exact .named (h2 p hp) e hq)
        rw [hstep] at this
        exact ⟨fun p hp => this.1 p (k2 p hp), this.2⟩

end

/-! ## C100 -/

section
variable [C : Curve] {P : IdentityPort} {a : Session} {peers : Outcome (Option (List Peer))}
  {client : Option (List Peer) → Outcome (Hash → Outcome Bucket)}
  {follows : Identity → List Hash} {follow : Identity → Bucket → Outcome Identity}

/-- The buckets are handed to the identity one after the other. -/
inductive Followed (follow : Identity → Bucket → Outcome Identity) :
    List Bucket → Identity → Identity → Prop where
  | nil (i : Identity) : Followed follow [] i i
  | cons {i j k : Identity} {b : Bucket} {bs : List Bucket} :
      follow i b = .ok j → Followed follow bs j k → Followed follow (b :: bs) i k

theorem followAll_ok {remote : Hash → Outcome Bucket} : ∀ {hs : List Hash} {i j : Identity},
    followAll follow remote hs i = .ok j →
      ∃ bs, List.Forall₂ (fun h b => remote h = .ok b) hs bs ∧ Followed follow bs i j
  | [], i, j, h => by
    simp only [followAll, Outcome.ok.injEq] at h
    subst h
    exact ⟨[], .nil, .nil _⟩
  | x :: xs, i, j, h => by
    simp only [followAll, Outcome.bind_eq_ok] at h
    obtain ⟨b, h1, k, h2, h3⟩ := h
    obtain ⟨bs, h4, h5⟩ := followAll_ok h3
    exact ⟨b :: bs, .cons h1 h4, .cons h2 h5⟩

/-- C100: a round that ends well has fetched every followed bucket, handed all of them to the identity
in order, and the same user retrieves the result. -/
theorem C100_round {s s' : P.S}
    (hf : ∀ i b j, follow i b = .ok j → j.name = i.name ∧ j.seed = i.seed)
    (h : bucketsRound P a peers client follows follow s = (.again, s')) :
    ∃ i j ps remote bs, P.retrieve s a.name a.password a.seed = .ok i ∧ peers = .ok ps ∧
      client ps = .ok remote ∧ List.Forall₂ (fun h b => remote h = .ok b) (follows i) bs ∧
      Followed follow bs i j ∧ P.retrieve s' a.name a.password a.seed = .ok j := by
  unfold bucketsRound at h
  split at h
  · simp at h
  · simp at h
  · rename_i i j hij
    simp only [Outcome.bind_eq_ok, Outcome.ok.injEq, Prod.mk.injEq] at hij
    obtain ⟨i', h1, ps, h2, remote, h3, j', h4, rfl, rfl⟩ := hij
    obtain ⟨bs, h5, h6⟩ := followAll_ok h4
    refine ⟨i', j', ps, remote, bs, h1, h2, h3, h5, h6, ?_⟩
    split at h
    · rename_i s₁ hs
      simp only [Prod.mk.injEq, true_and] at h
      subst h
      obtain ⟨n, sd, old, -, -, hv⟩ := P.update_ok (s := s) (h := i'.hash) (i := j') (p := a.password)
        (q := a.password) (by rw [hs])
      rw [hs] at hv
      have hn := P.names (P.retrieve_ok.mp h1)
      have hj : j'.name = i'.name ∧ j'.seed = i'.seed := by
        clear hv h4 h5 hs h1 hn
        induction h6 with
        | nil => exact ⟨rfl, rfl⟩
        | cons h7 _ ih =>
          have := hf _ _ _ h7
          exact ⟨ih.1.trans this.1, ih.2.trans this.2⟩
      rw [P.retrieve_ok, hv]
      unfold IdentityView.set
      simp [hj.1, hj.2, hn.1, hn.2]
    · simp at h

/-- C100 refuted: if one followed bucket is not available, nothing is saved and the daemon ends, though
others may be available. -/
theorem C100_one_missing_bucket_neg {s : P.S} {i : Identity} {ps : Option (List Peer)}
    {remote : Hash → Outcome Bucket} (h1 : P.retrieve s a.name a.password a.seed = .ok i)
    (h2 : peers = .ok ps) (h3 : client ps = .ok remote) {x : Hash} (hx : x ∈ follows i)
    (hm : ∀ b, remote x ≠ .ok b) :
    ∃ r, r ≠ .ok () ∧ bucketsRound P a peers client follows follow s = (.returns r, s) := by
  have hn : ∀ j, followAll follow remote (follows i) i ≠ .ok j := by
    intro j h
    obtain ⟨bs, h4, -⟩ := followAll_ok h
    obtain ⟨b, -, hb⟩ : ∃ b ∈ bs, remote x = .ok b := by
      clear h
      generalize follows i = hs at h4 hx
      induction h4 with
      | nil => simp at hx
      | cons h _ ih =>
        rcases List.mem_cons.mp hx with rfl | hx
        · exact ⟨_, by simp, h⟩
        · obtain ⟨b, hb, e⟩ := ih hx
          exact ⟨b, List.mem_cons_of_mem _ hb, e⟩
    exact hm b hb
  unfold bucketsRound
  simp only [h1, h2, h3, Outcome.bind_ok]
  cases e : followAll follow remote (follows i) i with
  | ok j => exact absurd e (hn j)
  | err m => exact ⟨.err m, by simp, rfl⟩
  | crash c => exact ⟨.crash c, by simp, rfl⟩

end

section examples

attribute [local instance] toyCurve toySha

/-- A chain with another height and another total. -/
def chainAt (c : Chain) (h n : UInt64) : Chain :=
  { c with head := { c.head with link := { c.head.link with index := h } }, total := n }

/-- A local chain application that takes every link. -/
def toyChainPort : ChainPort where
  S := Chain
  retrieve c := .ok c
  upgrade c l := (.ok (), { c with head := l, total := c.total + 1 })

theorem toyChainPort_lawful : toyChainPort.Lawful where
  upgrade_ok := by
    intro s l s' h
    exact ⟨s', rfl, by cases h; rfl⟩
  upgrade_fails h := absurd rfl h

/-- A node with a chain of the given height and total. -/
def toyRemote (c : Chain) (h n : UInt64) : RemoteChain := ⟨.ok (chainAt c h n), fun i => .ok (chainAt c i n)⟩

/-- C64, C97: a local chain of height 2 with 4 transactions, and peers of height 5 with 9 and height 4
with 6; the round ends well. -/
example : ∃ (l : Chain) (ps : List Peer) (remote : Peer → Outcome RemoteChain) (s' : Chain),
    (∀ p ∈ ps, ∃ c r, Offers remote p c r) ∧ SmallTotals l ps remote ∧
    (l.height.toNat < 2 ^ 63 ∧ ∀ p ∈ ps, ∀ c r, Offers remote p c r →
      l.height < c.height ∧ c.height.toNat < 2 ^ 63) ∧
    (∀ p ∈ ps, ∀ c r, Offers remote p c r → ∀ i d, r.atIndex i = .ok d → d.height = i) ∧
    chainRound toyChainPort (.ok (some ps)) remote l = (.returns (.ok ()), s') ∧ s' ≠ l ∧
    (daemonRun (chainRounds toyChainPort (fun _ => .ok (some ps)) (fun _ => remote))
      (daemonStart (0, l)) [.tick]).state.2 ≠ l := by
  obtain ⟨b, r, k, m, c, -⟩ := toy_chain
  let remote : Peer → Outcome RemoteChain := fun p =>
    .ok (if p.port = 1 then toyRemote c 5 9 else toyRemote c 4 6)
  have ho : ∀ p c' r, Offers remote p c' r →
      (c' = chainAt c 5 9 ∧ r = toyRemote c 5 9) ∨ (c' = chainAt c 4 6 ∧ r = toyRemote c 4 6) := by
    rintro p c' r ⟨h1, h2⟩
    simp only [remote, Outcome.ok.injEq] at h1
    split at h1
    · subst h1; exact .inl ⟨(Outcome.ok.inj h2).symm, rfl⟩
    · subst h1; exact .inr ⟨(Outcome.ok.inj h2).symm, rfl⟩
  have hres : chainRound toyChainPort (.ok (some [⟨[1], 1, true, false⟩, ⟨[1], 2, true, false⟩])) remote
      (chainAt c 2 4) = (.returns (.ok ()), chainAt c 4 7) := by
    have e1 : toInt 5 = 5 := by decide
    have e2 : toInt 2 = 2 := by decide
    have e3 : toInt (5 - 2) = 3 := by decide
    have e : pickChain (chainAt c 2 4).total remote
        [⟨[1], 1, true, false⟩, ⟨[1], 2, true, false⟩] (0, none) =
          .ok (some (chainAt c 5 9, toyRemote c 5 9)) := by
      simp [pickChain, remote, toyRemote, chainAt, e1, e2]
    have l : (toInt ((chainAt c 5 9).height - (chainAt c 2 4).height)).toNat = 3 := by
      rw [show (chainAt c 5 9).height - (chainAt c 2 4).height = 5 - 2 from rfl, e3]
      rfl
    unfold chainRound
    simp only [show toyChainPort.retrieve (chainAt c 2 4) = .ok (chainAt c 2 4) from rfl,
      Outcome.deref, Outcome.bind_ok, e, l]
    rfl
  have hne : chainAt c 4 7 ≠ chainAt c 2 4 := fun h => by
    have := congrArg Chain.total h
    exact absurd this (by simp [chainAt])
  refine ⟨chainAt c 2 4, [⟨[1], 1, true, false⟩, ⟨[1], 2, true, false⟩], remote, chainAt c 4 7,
    fun p _ => ?_, ⟨by simp [chainAt], fun p _ c' r h => ?_⟩,
    ⟨by simp [chainAt, Chain.height], fun p _ c' r h => ?_⟩, fun p _ c' r h i d hd => ?_, hres, hne, ?_⟩
  · by_cases h : p.port = 1
    · exact ⟨_, toyRemote c 5 9, by simp [remote, h], rfl⟩
    · exact ⟨_, toyRemote c 4 6, by simp [remote, h], rfl⟩
  · rcases ho p c' r h with ⟨rfl, -⟩ | ⟨rfl, -⟩ <;> simp [chainAt]
  · rcases ho p c' r h with ⟨rfl, -⟩ | ⟨rfl, -⟩ <;> simp [chainAt, Chain.height]
  · rcases ho p c' r h with ⟨-, rfl⟩ | ⟨-, rfl⟩ <;> · cases hd; rfl
  · have e : (daemonRun (chainRounds toyChainPort
        (fun _ => .ok (some [⟨[1], 1, true, false⟩, ⟨[1], 2, true, false⟩])) (fun _ => remote))
        (daemonStart (0, chainAt c 2 4)) [.tick]).state.2 = chainAt c 4 7 := by
      simp [daemonRun, daemonStep, daemonStart, chainRounds, hres]
      try rfl
    rw [e]
    exact hne

/-- C64: a peer with more transactions that is not higher, a peer too far ahead. C98: a peer that cannot
be asked. -/
example : ∃ l : Chain,
    chainRound toyChainPort (.ok (some [⟨[1], 1, true, false⟩])) (fun _ => .ok (toyRemote l 2 9))
      (chainAt l 2 4) = (.returns (.ok ()), chainAt l 2 4) ∧
    chainRound toyChainPort (.ok (some [⟨[1], 1, true, false⟩]))
      (fun _ => .ok (toyRemote l 2 9223372036854775812)) (chainAt l 2 4) = (.again, chainAt l 2 4) ∧
    ∀ c r, ¬ Offers (fun _ => .err "no route") ⟨[1], 1, true, false⟩ c r := by
  obtain ⟨b, r, k, m, c, -⟩ := toy_chain
  have ho : ∀ p n c' r, Offers (fun _ => .ok (toyRemote c 2 n)) p c' r ↔
      c' = chainAt c 2 n ∧ r = toyRemote c 2 n := by
    intro p n c' r
    constructor
    · rintro ⟨h1, h2⟩
      cases h1
      cases h2
      exact ⟨rfl, rfl⟩
    · rintro ⟨rfl, rfl⟩
      exact ⟨rfl, rfl⟩
  refine ⟨c, C64_not_higher_nothing_applied_neg rfl (by simp [ho]) ⟨by simp [chainAt], ?_⟩
    ⟨by simp [chainAt, Chain.height], ?_⟩ ?_, C64_far_ahead_ignored_neg rfl (by simp [ho]) ?_,
    fun _ _ h => by cases h.1⟩
  · simp [ho, chainAt]
  · simp [ho, chainAt, Chain.height]
  · simp [ho, chainAt]
  · simp only [ho]
    rintro p - c' r ⟨rfl, rfl⟩
    exact (by decide : (4 : UInt64).toNat + 2 ^ 63 ≤ (9223372036854775812 : UInt64).toNat)

/-- C65: a daemon whose third round ends it: two rounds after two ticks, three after the third. -/
example : (daemonRun (fun n : Nat => (if n < 2 then .again else .returns (.ok ()), n + 1)) (daemonStart 0)
    ([.tick, .stop, .tick] ++ [.tick])).rounds = 3 :=
  (C65_rounds_are_counted _ 0 [.tick, .stop, .tick] rfl).2.1

/-- C65: a daemon that is stopped does two more rounds. -/
example : (daemonRun (fun n : Nat => (.again, n + 1)) (daemonStart 0) [.tick, .stop, .tick, .tick]).state
    = 3 := rfl

/-- C65: a daemon that has returned. -/
example : (daemonRun (fun n : Nat => (.returns (.ok ()), n + 1)) (daemonStart 0) [.tick]).returned ≠ none :=
  by simp [daemonRun, daemonStep, daemonStart]

/-- C99: a known peer names another one. -/
example : KnowsBuilt toyPeersPort [⟨[97], 1, true, false⟩] ∧
    peersRound toyPeersPort ⟨id, fun _ => List.Perm.refl _⟩ (fun _ => .ok (some [⟨[98], 2, false, true⟩]))
      [⟨[97], 1, true, false⟩] = (.again, [⟨[98], 2, false, true⟩, ⟨[97], 1, true, false⟩]) := by
  constructor
  · rintro p ⟨ps, h, hp⟩
    cases h
    simp only [List.mem_singleton] at hp
    subst hp
    exact Peer.built_iff.mpr (by decide)
  · have : peersMap [⟨[97], 1, true, false⟩, ⟨[98], 2, false, true⟩] =
        [⟨[98], 2, false, true⟩, ⟨[97], 1, true, false⟩] := by decide
    simp [peersRound, toyPeersPort, gatherPeers, Outcome.deref, peersNow, this]

/-- C98: a known peer that does not answer. -/
example : Knows toyPeersPort [⟨[97], 1, true, false⟩] ⟨[97], 1, true, false⟩ ∧
    ∀ rs, (fun _ : Peer => (Outcome.err "timeout" : Outcome (Option (List Peer)))) ⟨[97], 1, true, false⟩ ≠
      .ok (some rs) := ⟨⟨_, rfl, by simp⟩, by simp⟩

/-- C100: an identity that follows one bucket; a client that has it, and one that does not. -/
example : ∃ (a : Session) (s s' : (referencePort).S) (i : Identity) (x : Hash) (b : Bucket),
    referencePort.retrieve s a.name a.password a.seed = .ok i ∧
    bucketsRound referencePort a (.ok none) (fun _ => .ok fun _ => .ok b) (fun _ => [x])
      (fun i _ => .ok i) s = (.again, s') := by
  obtain ⟨s, i, -, bi, hv⟩ := toy_account (ascii "x") (ascii "x") (by decide)
  have hb : referencePort.view s (ascii "bob") (ascii "x") = some (i, ascii "x") := by rw [hv]; simp
  have hi := referencePort.retrieve_ok.mpr hb
  refine ⟨⟨ascii "bob", ascii "x", ascii "x"⟩, s, (referencePort.update s i.hash i (ascii "x") (ascii "x")).2,
    i, toyHash 1, ⟨toyHash 1, [], 0⟩, hi, ?_⟩
  unfold bucketsRound
  simp only [hi, Outcome.bind_ok, followAll]
  have := reference_update (j := i) (q := ascii "x") hb
  rw [show referencePort.update s i.hash i (ascii "x") (ascii "x") =
    (.ok (), (referencePort.update s i.hash i (ascii "x") (ascii "x")).2) from Prod.ext this rfl]

end examples

end Verif
