import Verif.Spec.Gossip
import Verif.Props.Daemons
import Mathlib.Data.Set.Finite.Basic
import Mathlib.Data.Set.Finite.Lattice

/-!
# Networks of nodes that run the peer daemon: C157
-/

namespace Verif

section
variable {P : PeersPort} {N : Course P} {up : Peer → Prop}

theorem Station.lists_iff {x : Station P} {ps : List Peer} (h : P.retrieve x.files = .ok (some ps)) (q : Peer) :
    x.Lists q ↔ q ∈ ps := by
  constructor
  · rintro ⟨qs, e, hq⟩
    rw [h] at e
    cases e
    exact hq
  · exact fun hq => ⟨ps, h, hq⟩

/-- What a round does to a node. -/
theorem RoundOf.facts (hP : P.Lawful) (hs : ∀ s ps, (P.save s ps).1 = .ok ())
    {p : Peer} {b t : ℕ} (hr : ∀ j ≤ t, ∀ q, up q → (N j q).Ready) (hp : up p) (h : RoundOf N up p b t) :
    ((N (t + 1) p).Ready ∧ (N (t + 1) p).ended = false ∧ (∀ q, (N t p).Lists q → up q) ∧
      (∀ q, (N t p).Lists q → (N (t + 1) p).Lists q) ∧
      (∀ q, (N t p).Lists q → ∃ j, b ≤ j ∧ j ≤ t ∧ ∀ r, (N j q).Lists r → (N (t + 1) p).Lists r) ∧
      ∀ r, (N (t + 1) p).Lists r → (N t p).Lists r ∨
        ∃ q j, (N t p).Lists q ∧ up q ∧ j ≤ t ∧ (N j q).Lists r) ∨
    ((N (t + 1) p).files = (N t p).files ∧ (N (t + 1) p).ended = true ∧ ∃ q, (N t p).Lists q ∧ ¬ up q) := by
  obtain ⟨hbt, -, hst, o, remote, r, s, hup, hdown, hround, hfiles, hend⟩ := h
  rw [hst t hbt le_rfl]
  obtain ⟨ps, hps, hB⟩ := hr b hbt p hp
  have hL := Station.lists_iff hps
  by_cases hall : ∀ q ∈ ps, up q
  · left
    have hans : ∀ q ∈ ps, ∃ rs j, b ≤ j ∧ j ≤ t ∧ P.retrieve (N j q).files = .ok (some rs) ∧
        remote q = .ok (some rs) ∧ ∀ x ∈ rs, x.Built := by
      intro q hq
      obtain ⟨j, h1, h2, h3⟩ := hup q (hall q hq)
      obtain ⟨rs, h4, h5⟩ := hr j h2 q (hall q hq)
      exact ⟨rs, j, h1, h2, h4, h3.trans h4, h5⟩
    have hg : ∀ l : List Peer, (∀ q ∈ l, q ∈ ps) → ∃ all, gatherPeers remote l = .ok all := by
      intro l
      induction l with
      | nil => exact fun _ => ⟨[], rfl⟩
      | cons q l ih =>
        intro hl
        obtain ⟨rs, j, -, -, -, h3, -⟩ := hans q (hl q (by simp))
        obtain ⟨all, ha⟩ := ih fun x hx => hl x (by simp [hx])
        exact ⟨q :: rs ++ all, by simp [gatherPeers, h3, Outcome.deref, ha]⟩
    obtain ⟨all, ha⟩ := hg ps fun _ h => h
    have hr' : r = .again ∧ peersRound P o remote (N b p).files = (.again, s) := by
      have hround' := hround
      unfold peersRound at hround
      simp only [hps, Outcome.deref, Outcome.bind_ok, ha] at hround
      split at hround
      · simp only [Prod.mk.injEq] at hround
        rw [← hround.1] at hround'
        exact ⟨hround.1.symm, hround'⟩
      · rename_i r' s' hne e
        have := hs (N b p).files (peersNow o all)
        rw [e] at this
        exact absurd this hne
    obtain ⟨qs, h1, -, h3⟩ := C99_round hP hps hB (fun q hq rs hrs => by
      obtain ⟨rs', _, -, -, -, h5, h6⟩ := hans q hq
      rw [hrs] at h5
      cases h5
      exact h6) hr'.2
    rw [← hfiles] at h1
    have hL' := Station.lists_iff h1
    refine ⟨⟨qs, h1, fun q hq => ?_⟩, hend.mpr hr'.1, fun q hq => hall q ((hL q).mp hq),
      fun q hq => (hL' q).mpr ((h3 q).mpr (.inl ((hL q).mp hq))), fun q hq => ?_, fun x hx => ?_⟩
    · rcases (h3 q).mp hq with h | ⟨x, hx, rs, h4, h5⟩
      · exact hB q h
      · obtain ⟨rs', _, -, -, -, h6, h7⟩ := hans x hx
        rw [h4] at h6
        cases h6
        exact h7 q h5
    · obtain ⟨rs, j, h4, h5, h6, h7, -⟩ := hans q ((hL q).mp hq)
      refine ⟨j, h4, h5, fun x hx => (hL' x).mpr ((h3 x).mpr (.inr ⟨q, (hL q).mp hq, rs, h7, ?_⟩))⟩
      exact (Station.lists_iff h6 x).mp hx
    · rcases (h3 x).mp ((hL' x).mp hx) with h | ⟨q, hq, rs, h4, h5⟩
      · exact .inl ((hL x).mpr h)
      · obtain ⟨rs', j, -, h6, h7, h8, -⟩ := hans q hq
        rw [h4] at h8
        cases h8
        exact .inr ⟨q, j, (hL q).mpr hq, hall q hq, h6, (Station.lists_iff h7 x).mpr h5⟩
  · right
    push Not at hall
    obtain ⟨q, hq, hd⟩ := hall
    obtain ⟨m, hm⟩ := hdown q hd
    obtain ⟨r', hr', he⟩ := C98_unreachable_peer_ends_peer_daemon_neg (o := o) (remote := remote) hps hq
      (fun rs => by rw [hm]; simp)
    rw [hround] at he
    cases he
    refine ⟨hfiles, ?_, q, (hL q).mpr hq, hd⟩
    cases h : (N (t + 1) p).ended with
    | true => rfl
    | false => exact absurd (hend.mp h) (by simp)

/-- At all times the nodes that are up have lists, whatever they list can be found, and their lists grow. -/
theorem Evolves.invariant (hP : P.Lawful) (hs : ∀ s ps, (P.save s ps).1 = .ok ()) (hN : Begins N up)
    (hE : Evolves N up) (t : ℕ) :
    (∀ j ≤ t, ∀ p, up p → (N j p).Ready) ∧
    (∀ j ≤ t, ∀ p, up p → ∀ q, (N j p).Lists q → Findable N up p q) ∧
    (∀ j < t, ∀ p, up p → ∀ q, (N j p).Lists q → (N (j + 1) p).Lists q) ∧
    ∀ j ≤ t, ∀ p, up p → (N j p).ended = true → ∃ q, (N j p).Lists q ∧ ¬ up q := by
  induction t with
  | zero =>
    refine ⟨fun j hj p hp => ?_, fun j hj p hp q hq => ?_, fun j hj => absurd hj (by omega), fun j hj p hp he => ?_⟩
    · rw [Nat.le_zero.mp hj]
      exact (hN p hp).2
    · rw [Nat.le_zero.mp hj] at hq
      exact .single ⟨hp, hq⟩
    · rw [Nat.le_zero.mp hj, (hN p hp).1] at he
      cases he
  | succ t ih =>
    obtain ⟨i1, i2, i3, i4⟩ := ih
    have step : ∀ p, up p → (N (t + 1) p).Ready ∧ (∀ q, (N (t + 1) p).Lists q → Findable N up p q) ∧
        (∀ q, (N t p).Lists q → (N (t + 1) p).Lists q) ∧
        ((N (t + 1) p).ended = true → ∃ q, (N (t + 1) p).Lists q ∧ ¬ up q) := by
      intro p hp
      rcases hE t p with h | ⟨b, h⟩
      · rw [h]
        exact ⟨i1 t le_rfl p hp, i2 t le_rfl p hp, fun _ h => h, i4 t le_rfl p hp⟩
      · rcases RoundOf.facts hP hs i1 hp h with ⟨h1, h2, -, h4, -, h6⟩ | ⟨h1, h2, q, h3, h4⟩
        · refine ⟨h1, fun q hq => ?_, h4, fun he => by rw [h2] at he; cases he⟩
          rcases h6 q hq with h | ⟨r, j, hr, hur, hj, hjr⟩
          · exact i2 t le_rfl p hp q h
          · exact (i2 t le_rfl p hp r hr).trans (i2 j hj r hur q hjr)
        · have hl : ∀ q, (N (t + 1) p).Lists q ↔ (N t p).Lists q := fun q => by
            unfold Station.Lists
            rw [h1]
          refine ⟨?_, fun q hq => i2 t le_rfl p hp q ((hl q).mp hq), fun q hq => (hl q).mpr hq,
            fun _ => ⟨q, (hl q).mpr h3, h4⟩⟩
          unfold Station.Ready
          rw [h1]
          exact i1 t le_rfl p hp
    refine ⟨fun j hj p hp => ?_, fun j hj p hp => ?_, fun j hj p hp => ?_, fun j hj p hp => ?_⟩
    · rcases Nat.le_succ_iff.mp hj with h | rfl
      · exact i1 j h p hp
      · exact (step p hp).1
    · rcases Nat.le_succ_iff.mp hj with h | rfl
      · exact i2 j h p hp
      · exact (step p hp).2.1
    · rcases Nat.lt_succ_iff_lt_or_eq.mp hj with h | rfl
      · exact i3 j h p hp
      · exact (step p hp).2.2.1
    · rcases Nat.le_succ_iff.mp hj with h | rfl
      · exact i4 j h p hp
      · exact (step p hp).2.2.2

theorem Evolves.grows (hP : P.Lawful) (hs : ∀ s ps, (P.save s ps).1 = .ok ()) (hN : Begins N up)
    (hE : Evolves N up) {p : Peer} (hp : up p) {q : Peer} {i j : ℕ} (hij : i ≤ j) (h : (N i p).Lists q) :
    (N j p).Lists q := by
  induction j, hij using Nat.le_induction with
  | base => exact h
  | succ j _ ih => exact (hE.invariant hP hs hN (j + 1)).2.2.1 j (by omega) p hp q ih

/-- C157: no node ever lists a peer that could not be found from its first list. -/
theorem C157_nobody_is_invented (hP : P.Lawful) (hs : ∀ s ps, (P.save s ps).1 = .ok ()) (hN : Begins N up)
    (hE : Evolves N up) {p : Peer} (hp : up p) {t : ℕ} {q : Peer} (h : (N t p).Lists q) :
    Findable N up p q :=
  (hE.invariant hP hs hN t).2.1 t le_rfl p hp q h

/-- A round that a node finishes teaches it what the nodes in its list had in theirs when it began. -/
theorem Evolves.learns (hP : P.Lawful) (hs : ∀ s ps, (P.save s ps).1 = .ok ()) (hN : Begins N up)
    (hE : Evolves N up) {p : Peer} (hp : up p) {b t : ℕ} (h : RoundOf N up p b t)
    (hl : ∀ q, (N t p).Lists q → up q) :
    (N (t + 1) p).ended = false ∧
      ∀ r q, (N b p).Lists r → (N b r).Lists q → (N (t + 1) p).Lists q := by
  rcases RoundOf.facts hP hs (hE.invariant hP hs hN t).1 hp h with ⟨-, h2, -, -, h5, -⟩ | ⟨-, -, q, h3, h4⟩
  · refine ⟨h2, fun r q hr hq => ?_⟩
    have hr' := hE.grows hP hs hN hp h.1 hr
    obtain ⟨j, hj, -, hx⟩ := h5 r hr'
    exact hx q (hE.grows hP hs hN (hl r hr') hj hq)
  · exact absurd (hl q h3) h4

/-- When every peer that can be found is up, no daemon ever ends. -/
theorem Evolves.running (hP : P.Lawful) (hs : ∀ s ps, (P.save s ps).1 = .ok ()) (hN : Begins N up)
    (hE : Evolves N up) {p : Peer} (hp : up p) (hu : ∀ q, Findable N up p q → up q) (t : ℕ) :
    (N t p).ended = false := by
  cases h : (N t p).ended with
  | false => rfl
  | true =>
    obtain ⟨q, hq, hd⟩ := (hE.invariant hP hs hN t).2.2.2 t le_rfl p hp h
    exact absurd (hu q (C157_nobody_is_invented hP hs hN hE hp hq)) hd

/-- C157: when every peer that can be found from a node is up, its daemon never ends, and from some time on it
lists every one of them, in whatever order and however slowly the nodes do their rounds. -/
theorem C157_everybody_is_found (hP : P.Lawful) (hs : ∀ s ps, (P.save s ps).1 = .ok ()) (hN : Begins N up)
    (hE : Evolves N up) (hF : Fair N up) {p : Peer} (hp : up p) (hu : ∀ q, Findable N up p q → up q) :
    (∀ t, (N t p).ended = false) ∧
      ∀ q, Findable N up p q → ∃ T, ∀ t, T ≤ t → (N t p).Lists q := by
  refine ⟨hE.running hP hs hN hp hu, fun q h => ?_⟩
  induction h using Relation.TransGen.head_induction_on with
  | single h => exact ⟨0, fun t _ => hE.grows hP hs hN hp (Nat.zero_le t) h.2⟩
  | @head a r h₁ h₂ ih =>
    have hr : up r := hu r (.single h₁)
    obtain ⟨T, hT⟩ := ih hr fun x hx => hu x (.head h₁ hx)
    rcases hF a hp T with ⟨u, -, he⟩ | ⟨b, u, hb, hround⟩
    · rw [hE.running hP hs hN hp hu u] at he
      cases he
    · have := (hE.learns hP hs hN hp hround fun x hx =>
        hu x (C157_nobody_is_invented hP hs hN hE hp hx)).2 r q
        (hE.grows hP hs hN hp (Nat.zero_le b) h₁.2) (hT b hb)
      exact ⟨u + 1, fun t ht => hE.grows hP hs hN hp ht this⟩

/-- C157: in a finite network the list of each node becomes, and stays, the list of all peers that can be found
from it. -/
theorem C157_lists_become_complete (hP : P.Lawful) (hs : ∀ s ps, (P.save s ps).1 = .ok ()) (hN : Begins N up)
    (hE : Evolves N up) (hF : Fair N up) {p : Peer} (hp : up p) (hu : ∀ q, Findable N up p q → up q)
    (hfin : {q | Findable N up p q}.Finite) :
    ∃ T, ∀ t, T ≤ t → ∀ q, (N t p).Lists q ↔ Findable N up p q := by
  have h := (C157_everybody_is_found hP hs hN hE hF hp hu).2
  choose! T hT using h
  obtain ⟨M, hM⟩ := (hfin.image T).bddAbove
  exact ⟨M, fun t ht q => ⟨C157_nobody_is_invented hP hs hN hE hp,
    fun hq => hT q hq t ((hM ⟨q, hq, rfl⟩).trans ht)⟩⟩

theorem FoundOver.findable {n : ℕ} {p q : Peer} (h : FoundOver N up n p q) : Findable N up p q := by
  induction h with
  | here h1 h2 => exact .single ⟨h1, h2⟩
  | there h1 h2 _ ih => exact .head ⟨h1, h2⟩ ih

theorem FoundOver.up_left {n : ℕ} {p q : Peer} (h : FoundOver N up n p q) : up p := by
  cases h <;> assumption

theorem FoundOver.pos {n : ℕ} {p q : Peer} (h : FoundOver N up n p q) : 0 < n := by
  cases h <;> omega

theorem FoundOver.split {n : ℕ} {p q : Peer} (h : FoundOver N up n p q) :
    ∀ {a b : ℕ}, 0 < a → 0 < b → a + b = n → ∃ r, FoundOver N up a p r ∧ FoundOver N up b r q := by
  induction h with
  | here h1 h2 => intro a b ha hb he; omega
  | @there n p r q h1 h2 h3 ih =>
    intro a b ha hb he
    rcases Nat.lt_or_ge 1 a with h | h
    · obtain ⟨x, hx, hy⟩ := ih (a := a - 1) (b := b) (by omega) hb (by omega)
      refine ⟨x, ?_, hy⟩
      have := FoundOver.there h1 h2 hx
      rwa [Nat.sub_add_cancel ha] at this
    · obtain rfl : a = 1 := by omega
      obtain rfl : b = n := by omega
      exact ⟨r, .here h1 h2, h3⟩

/-- C157, how long it takes: when each node begins and finishes a round in each of `k` periods, it lists
after them every peer that could be found over `2 ^ k` nodes: the distance doubles with each round. -/
theorem C157_doubling (hP : P.Lawful) (hs : ∀ s ps, (P.save s ps).1 = .ok ()) (hN : Begins N up)
    (hE : Evolves N up) (hu : ∀ p, up p → ∀ q, Findable N up p q → up q) {E : ℕ → ℕ}
    (hround : ∀ k p, up p → ∃ b t, E k ≤ b ∧ t < E (k + 1) ∧ RoundOf N up p b t)
    {k n : ℕ} (hn : n ≤ 2 ^ k) {p q : Peer} (h : FoundOver N up n p q) : (N (E k) p).Lists q := by
  induction k generalizing n p q with
  | zero =>
    obtain rfl : n = 1 := by have := h.pos; omega
    cases h with
    | here h1 h2 => exact hE.grows hP hs hN h1 (Nat.zero_le _) h2
    | there _ _ h3 => exact absurd h3.pos (by omega)
  | succ k ih =>
    have hp := h.up_left
    obtain ⟨b, t, hb, ht, hr⟩ := hround k p hp
    rcases Nat.lt_or_ge n 2 with h1 | h1
    · exact hE.grows hP hs hN hp (show E k ≤ E (k + 1) by have := hr.1; omega)
        (ih (n := n) (by have := Nat.one_le_two_pow (n := k); omega) h)
    · rw [pow_succ] at hn
      obtain ⟨r, h2, h3⟩ := h.split (a := n / 2) (b := n - n / 2) (by omega) (by omega) (by omega)
      have h4 := ih (n := n / 2) (by omega) h2
      have h5 := ih (n := n - n / 2) (by omega) h3
      have hur := h3.up_left
      have := (hE.learns hP hs hN hp hr fun x hx =>
        hu p hp x (C157_nobody_is_invented hP hs hN hE hp hx)).2 r q
        (hE.grows hP hs hN hp hb h4) (hE.grows hP hs hN hur hb h5)
      exact hE.grows hP hs hN hp ht this

/-- C157 does not hold when a node is down: the daemon of every node from which it can be found ends, sooner or
later, and never runs again. -/
theorem C157_one_node_down_ends_all_neg (hP : P.Lawful) (hs : ∀ s ps, (P.save s ps).1 = .ok ())
    (hN : Begins N up) (hE : Evolves N up) (hF : Fair N up) {p d : Peer} (hd : ¬ up d)
    (h : Findable N up p d) : ∃ T, ∀ t, T ≤ t → (N t p).ended = true := by
  have stays : ∀ {p i j}, i ≤ j → (N i p).ended = true → (N j p).ended = true := by
    intro p i j hij he
    induction j, hij using Nat.le_induction with
    | base => exact he
    | succ j _ ih =>
      rcases hE j p with h | ⟨b, h1, h2, h3, -⟩
      · rw [h, ih]
      · rw [← h3 j h1 le_rfl, ih] at h2
        cases h2
  have key : up p ∧ ∃ T q, (N T p).Lists q ∧ ¬ up q := by
    induction h using Relation.TransGen.head_induction_on with
    | single h => exact ⟨h.1, 0, d, h.2, hd⟩
    | @head a r h₁ h₂ ih =>
      obtain ⟨hur, T, q, hq, hqd⟩ := ih
      refine ⟨h₁.1, ?_⟩
      rcases hF a h₁.1 T with ⟨u, -, he⟩ | ⟨b, u, hb, hround⟩
      · exact ⟨u, (hE.invariant hP hs hN u).2.2.2 u le_rfl a h₁.1 he⟩
      · by_cases hx : ∀ x, (N u a).Lists x → up x
        · exact ⟨u + 1, q, (hE.learns hP hs hN h₁.1 hround hx).2 r q
            (hE.grows hP hs hN h₁.1 (Nat.zero_le b) h₁.2) (hE.grows hP hs hN hur hb hq), hqd⟩
        · push Not at hx
          exact ⟨u, hx⟩
  obtain ⟨hp, T, q, hq, hqd⟩ := key
  rcases hF p hp T with ⟨u, -, he⟩ | ⟨b, u, hb, hround⟩
  · exact ⟨u, fun t ht => stays ht he⟩
  · refine ⟨u + 1, fun t ht => stays ht ?_⟩
    rcases RoundOf.facts hP hs (hE.invariant hP hs hN u).1 hp hround with ⟨-, -, h3, -⟩ | ⟨-, h2, -⟩
    · exact absurd (h3 q (hE.grows hP hs hN hp (hb.trans hround.1) hq)) hqd
    · exact h2

end

section examples

/-- The network in which all nodes do their rounds at the same time, from the given lists. -/
noncomputable def lockstep (up : Peer → Prop) (lists : Peer → List Peer) : Course toyPeersPort
  | 0, p => ⟨lists p, false⟩
  | t + 1, p =>
    open Classical in
    if (lockstep up lists t p).ended then lockstep up lists t p
    else
      let r := peersRound toyPeersPort ⟨id, fun _ => List.Perm.refl _⟩
        (fun q => if up q then .ok (some (lockstep up lists t q).files) else .err "") (lockstep up lists t p).files
      ⟨r.2, match r.1 with | .again => false | .returns _ => true⟩

theorem lockstep_round {up : Peer → Prop} {lists : Peer → List Peer} {t : ℕ} {p : Peer}
    (h : (lockstep up lists t p).ended = false) : RoundOf (lockstep up lists) up p t t := by
  classical
  have hx : lockstep up lists (t + 1) p = _ := lockstep.eq_2 up lists p t
  rw [h] at hx
  simp only [Bool.false_eq_true, if_false] at hx
  generalize hr : peersRound toyPeersPort _ _ _ = x at hx
  refine ⟨le_rfl, h, fun j h1 h2 => by rw [Nat.le_antisymm h2 h1], _, _, x.1, x.2, fun q hq => ?_,
    fun q hq => ⟨"", if_neg hq⟩, hr, by rw [hx], ?_⟩
  · exact ⟨t, le_rfl, le_rfl, if_pos hq⟩
  · rw [hx]
    obtain ⟨r, s⟩ := x
    cases r <;> simp

theorem lockstep_evolves (up : Peer → Prop) (lists : Peer → List Peer) : Evolves (lockstep up lists) up := by
  intro t p
  cases h : (lockstep up lists t p).ended with
  | false => exact .inr ⟨t, lockstep_round h⟩
  | true =>
    left
    rw [lockstep, h]
    simp

theorem lockstep_fair (up : Peer → Prop) (lists : Peer → List Peer) : Fair (lockstep up lists) up := by
  intro p _ t
  cases h : (lockstep up lists t p).ended with
  | false => exact .inr ⟨t, t, le_rfl, lockstep_round h⟩
  | true => exact .inl ⟨t, le_rfl, h⟩

/-- A node on the given port. -/
def toyPeer (n : UInt64) : Peer := ⟨ascii "a", n, true, false⟩

theorem toyPeersPort_lawful : toyPeersPort.Lawful := ⟨fun _ => rfl, fun h => absurd rfl h⟩

/-- C157: a line of four nodes, of which each lists the next one only: when all are up, the first one lists the
last one some day; when the last one is down, the daemon of the first one ends. -/
example : let lists : Peer → List Peer := fun p => if p.port < 4 then [toyPeer (p.port + 1)] else []
    (∃ T, ∀ t, T ≤ t → (lockstep (fun _ => True) lists t (toyPeer 1)).Lists (toyPeer 4)) ∧
    ∃ T, ∀ t, T ≤ t → (lockstep (fun p => p ≠ toyPeer 4) lists t (toyPeer 1)).ended = true := by
  intro lists
  have hB : ∀ up, Begins (lockstep up lists) up := by
    intro up p _
    refine ⟨rfl, lists p, rfl, fun q hq => ?_⟩
    simp only [lists] at hq
    split at hq
    · rename_i h4
      rw [List.mem_singleton.mp hq]
      refine Peer.built_iff.mpr ⟨show ascii "a" ≠ [] by decide, fun h => ?_, rfl⟩
      have h1 : (p.port + 1).toNat = 0 := by rw [show p.port + 1 = 0 from h]; rfl
      have h2 : p.port.toNat < 4 := UInt64.lt_iff_toNat_lt.mp h4
      rw [UInt64.toNat_add] at h1
      simp at h1
      omega
    · cases hq
  have hF : ∀ up : Peer → Prop, up (toyPeer 1) → up (toyPeer 2) → up (toyPeer 3) →
      Findable (lockstep up lists) up (toyPeer 1) (toyPeer 4) := by
    intro up h1 h2 h3
    refine .head ⟨h1, ?_⟩ (.head ⟨h2, ?_⟩ (.single ⟨h3, ?_⟩)) (b := toyPeer 2)
    · exact ⟨[toyPeer 2], rfl, by simp⟩
    · exact ⟨[toyPeer 3], rfl, by simp⟩
    · exact ⟨[toyPeer 4], rfl, by simp⟩
  refine ⟨?_, ?_⟩
  · exact (C157_everybody_is_found toyPeersPort_lawful (fun _ _ => rfl) (hB _) (lockstep_evolves _ _)
      (lockstep_fair _ _) trivial fun _ _ => trivial).2 _ (hF _ trivial trivial trivial)
  · exact C157_one_node_down_ends_all_neg toyPeersPort_lawful (fun _ _ => rfl) (hB _) (lockstep_evolves _ _)
      (lockstep_fair _ _) (by simp) (hF _ (by decide) (by decide) (by decide))

end examples

end Verif
