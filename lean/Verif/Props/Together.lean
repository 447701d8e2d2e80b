import Verif.Model.Together
import Verif.Props.Accounts
import Verif.Props.Peers
import Verif.Props.Daemons

/-!
# C141, C142: changes made at the same time
-/

namespace Verif

section generic
variable {ι S V : Type} [DecidableEq ι] {calls : ι → TwoStep S V} {E : S → S → Prop}

/-- A call that holds what it has read does so until it writes. -/
theorem Play.holds {c d : Scene ι S V} {as : List (Act ι)} (h : Play calls E c as d) {k : ι} {v : V}
    (hk : c.stage k = .seen v) (hw : .writes k ∉ as) : d.stage k = .seen v := by
  induction h with
  | nil c => exact hk
  | @cons c d e a as hb ht ih =>
    refine ih ?_ fun h => hw (List.mem_cons_of_mem _ h)
    cases hb with
    | @reads j hj =>
      have : k ≠ j := by rintro rfl; rw [hk] at hj; cases hj
      simpa [Function.update_of_ne this] using hk
    | @writes j v' hj =>
      have : k ≠ j := by rintro rfl; exact hw (by simp)
      simpa [Function.update_of_ne this] using hk
    | other _ => exact hk

/-- A call that has returned stays so. -/
theorem Play.stays {c d : Scene ι S V} {as : List (Act ι)} (h : Play calls E c as d) {k : ι}
    {r : Outcome Unit} (hk : c.stage k = .returned r) : d.stage k = .returned r := by
  induction h with
  | nil c => exact hk
  | @cons c d e a as hb ht ih =>
    refine ih ?_
    cases hb with
    | @reads j hj =>
      have : k ≠ j := by rintro rfl; rw [hk] at hj; cases hj
      simpa [Function.update_of_ne this] using hk
    | @writes j v' hj =>
      have : k ≠ j := by rintro rfl; rw [hk] at hj; cases hj
      simpa [Function.update_of_ne this] using hk
    | other _ => exact hk

/-- What holds of all that is read, if writing keeps it. -/
theorem Play.keeps {R : S → Prop} {G : V → Prop} {K : ι → Prop}
    (hread : ∀ {k s v}, K k → R s → (calls k).read s = .ok v → G v)
    (hwrite : ∀ {k s v}, K k → R s → G v → R ((calls k).write v s).2)
    (hE : ∀ {s t}, R s → E s t → R t) {c d : Scene ι S V} {as : List (Act ι)}
    (h : Play calls E c as d) (hK : ∀ k, .writes k ∈ as → K k) (hc : R c.state)
    (hs : ∀ k v, .writes k ∈ as → c.stage k = .seen v → G v) : R d.state := by
  induction h with
  | nil c => exact hc
  | @cons c d e a as hb ht ih =>
    refine ih (fun k hk => hK k (List.mem_cons_of_mem _ hk)) ?_ ?_
    · cases hb with
      | reads _ => exact hc
      | @writes j v hj => exact hwrite (hK j (by simp)) hc (hs j v (by simp) hj)
      | other hE' => exact hE hc hE'
    · intro k v hk hv
      have hk' := List.mem_cons_of_mem a hk
      cases hb with
      | @reads j hj =>
        by_cases e : k = j
        · subst e
          simp only [Function.update_self] at hv
          cases hr : (calls k).read c.state with
          | ok w =>
            rw [hr] at hv
            cases hv
            exact hread (hK k hk') hc hr
          | err m => rw [hr] at hv; cases hv
          | crash m => rw [hr] at hv; cases hv
        · exact hs k v hk' (by simpa [Function.update_of_ne e] using hv)
      | @writes j w hj =>
        by_cases e : k = j
        · subst e
          simp at hv
        · exact hs k v hk' (by simpa [Function.update_of_ne e] using hv)
      | other _ => exact hs k v hk' hv

/-- What a call writes is made of what it has read, whatever happened since. -/
theorem Play.span {c₀ c₁ c₂ c₃ : Scene ι S V} {as : List (Act ι)} {k : ι} {v : V}
    (h₁ : Beat calls E c₀ (.reads k) c₁) (hv : (calls k).read c₀.state = .ok v)
    (h₂ : Play calls E c₁ as c₂) (hk : .writes k ∉ as) (h₃ : Beat calls E c₂ (.writes k) c₃) :
    c₃.state = ((calls k).write v c₂.state).2 ∧
      c₃.stage k = .returned ((calls k).write v c₂.state).1 := by
  have h1 : c₁.stage k = .seen v := by
    cases h₁
    simp [hv, Stage.ofRead]
  have h2 := h₂.holds h1 hk
  cases h₃ with
  | @writes _ w hw =>
    obtain rfl := Stage.seen.inj (h2.symm.trans hw)
    exact ⟨rfl, by simp⟩

end generic

/-! ## C141: changes of an identity -/

section
variable [C : Curve]

section bridge
variable [Sha512] (P : IdentityPort) (a : Session) (s : P.S)

omit [Sha512] in
/-- The halves of adding a bucket make up the call. -/
theorem add_steps (b : IdBucket) :
    ((IdChange.add a b).steps P a).call s = a.addBucket P s b := rfl

omit [Sha512] in
/-- The halves of deleting a bucket make up the call. -/
theorem remove_steps (path : Bytes) :
    ((IdChange.remove a path).steps P a).call s = a.deleteBucket P s path := rfl

/-- The halves of changing an identity make up the call. -/
theorem amend_steps (u : IdentityUpdate) (now₁ now₂ : Time) :
    ((IdChange.amend a u now₁ now₂).steps P a).call s =
      ((a.update P s u now₁ now₂).1, (a.update P s u now₁ now₂).2.1) := by
  unfold Session.update
  change withOk _ _ _ = _
  generalize hr : withOk (P.retrieve s a.name a.password a.seed) s _ = r
  have : withOk (((IdChange.amend a u now₁ now₂).steps P a).read s) s
      (fun v => ((IdChange.amend a u now₁ now₂).steps P a).write v s) = r := hr
  rw [this]
  obtain ⟨o, t⟩ := r
  cases o <;> rfl

/-- The halves of paying for a bucket make up the call. -/
theorem pay_steps (I : IdentityParts) (additional : Int) (path : Bytes) (fees : List FeeRun)
    (now : Time) :
    ((IdChange.pay a I additional path fees now).steps P a).call s =
      a.bucket P I additional s path fees now := by
  unfold Session.bucket TwoStep.call
  congr 1
  funext i
  simp only [IdChange.steps, IdChange.pay]
  cases h : bucketTransaction I additional i path fees now <;> rfl

omit [Sha512] in
/-- The halves of a round of the daemon of buckets make up the round. -/
theorem follow_steps (peers : Outcome (Option (List Peer)))
    (client : Option (List Peer) → Outcome (Hash → Outcome Bucket))
    (follows : Identity → List Hash) (follow : Identity → Bucket → Outcome Identity) :
    bucketsRound P a peers client follows follow s =
      match ((IdChange.follow a peers client follows follow).steps P a).call s with
      | (.ok (), s') => (.again, s')
      | (r, s') => (.returns r, s') := by
  unfold bucketsRound TwoStep.call
  simp only [IdChange.steps, IdChange.follow]
  cases P.retrieve s a.name a.password a.seed with
  | err m => rfl
  | crash c => rfl
  | ok i =>
    simp only [withOk]
    cases peers with
    | err m => rfl
    | crash c => rfl
    | ok ps =>
      simp only [Outcome.bind_ok]
      cases client ps with
      | err m => rfl
      | crash c => rfl
      | ok remote =>
        simp only [Outcome.bind_ok]
        cases followAll follow remote (follows i) i with
        | err m => rfl
        | crash c => rfl
        | ok j => rfl

/-- C141, what the calls are: reading and then writing at once is, for each of the five changes, the
call of the application, or the round of the daemon of buckets. -/
theorem C141_halves_make_the_calls :
    (∀ b, ((IdChange.add a b).steps P a).call s = a.addBucket P s b) ∧
    (∀ path, ((IdChange.remove a path).steps P a).call s = a.deleteBucket P s path) ∧
    (∀ u now₁ now₂, ((IdChange.amend a u now₁ now₂).steps P a).call s =
      ((a.update P s u now₁ now₂).1, (a.update P s u now₁ now₂).2.1)) ∧
    (∀ I additional path fees now, ((IdChange.pay a I additional path fees now).steps P a).call s =
      a.bucket P I additional s path fees now) ∧
    ∀ peers client follows follow, bucketsRound P a peers client follows follow s =
      match ((IdChange.follow a peers client follows follow).steps P a).call s with
      | (.ok (), s') => (.again, s')
      | (r, s') => (.returns r, s') :=
  ⟨add_steps P a s, remove_steps P a s, amend_steps P a s, pay_steps P a s, follow_steps P a s⟩

end bridge

variable {ι : Type} [DecidableEq ι] {P : IdentityPort} {a : Session} {calls : ι → IdChange}
  {E : P.S → P.S → Prop}

omit C in
/-- C141, C142: a call with nothing between its halves does what the call does: it reads, and if that fails it has
returned the error and changed nothing, otherwise it can write, which ends it with its result. -/
theorem C141_alone_is_the_call {κ S V : Type} [DecidableEq κ] {two : κ → TwoStep S V} {F : S → S → Prop}
    {c : Scene κ S V} {k : κ} (h : c.stage k = .idle) : ∃ d, Beat two F c (.reads k) d ∧
      ((∃ v, (two k).read c.state = .ok v) ∧ (∃ e, Beat two F d (.writes k) e ∧
          e.stage k = .returned ((two k).call c.state).1 ∧ e.state = ((two k).call c.state).2) ∨
        d.stage k = .returned ((two k).call c.state).1 ∧ d.state = ((two k).call c.state).2 ∧
          d.state = c.state) := by
  refine ⟨_, .reads h, ?_⟩
  cases hr : (two k).read c.state with
  | ok v =>
    refine .inl ⟨⟨v, rfl⟩, _, .writes (v := v) (by simp [Stage.ofRead]), ?_⟩
    simp [TwoStep.call, hr, withOk]
  | err m => exact .inr (by simp [TwoStep.call, hr, withOk, Stage.ofRead])
  | crash m => exact .inr (by simp [TwoStep.call, hr, withOk, Stage.ofRead])

/-- C141, the cause: a call that succeeds leaves what it made of the identity it had read, whatever
other calls did in between, and whatever they returned. -/
theorem C141_last_write_wins {c₀ c₁ c₂ c₃ : Scene ι P.S Identity} {as : List (Act ι)} {k : ι}
    {i : Identity} (h₁ : Beat (fun k => (calls k).steps P a) E c₀ (.reads k) c₁)
    (hi : a.retrieve P c₀.state = .ok i)
    (h₂ : Play (fun k => (calls k).steps P a) E c₁ as c₂) (hk : .writes k ∉ as)
    (h₃ : Beat (fun k => (calls k).steps P a) E c₂ (.writes k) c₃)
    (hr : c₃.stage k = .returned (.ok ())) :
    ∃ j, (calls k).make i = .ok j ∧
      P.retrieve c₃.state j.name (calls k).password j.seed = .ok j := by
  obtain ⟨h4, h5⟩ := Play.span h₁ hi h₂ hk h₃
  rw [hr] at h5
  have h5 := (Stage.returned.inj h5).symm
  obtain ⟨j, hj, e, hu⟩ := withOk_eq_ok h5
  have h4 : c₃.state = (P.update c₂.state i.hash j a.password (calls k).password).2 :=
    h4.trans (congrArg Prod.snd e)
  refine ⟨j, hj, ?_⟩
  rw [h4]
  exact P.update_then_retrieve (Prod.ext hu rfl)

/-- C141 refuted: two buckets are added at the same time, both calls succeed, and one of the buckets
is gone. This is so whenever one call reads, the other one writes, and then the first one writes. -/
theorem C141_added_bucket_lost_neg {c₀ c₁ c₂ c₃ : Scene ι P.S Identity} {as : List (Act ι)} {j k : ι}
    {i : Identity} {b d : IdBucket} (hb : calls k = .add a b) (_hd : calls j = .add a d)
    (h₁ : Beat (fun k => (calls k).steps P a) E c₀ (.reads k) c₁)
    (hi : a.retrieve P c₀.state = .ok i) (hn : d ∉ i.buckets) (hne : d ≠ b)
    (h₂ : Play (fun k => (calls k).steps P a) E c₁ as c₂) (_hj : .writes j ∈ as)
    (hk : .writes k ∉ as) (_hjr : c₂.stage j = .returned (.ok ()))
    (h₃ : Beat (fun k => (calls k).steps P a) E c₂ (.writes k) c₃)
    (hr : c₃.stage k = .returned (.ok ())) :
    ∃ i', a.retrieve P c₃.state = .ok i' ∧ b ∈ i'.buckets ∧ d ∉ i'.buckets := by
  obtain ⟨i', e, h⟩ := C141_last_write_wins h₁ hi h₂ hk h₃ hr
  rw [hb] at e h
  obtain rfl := Outcome.ok.inj e
  have hn' := P.names (P.retrieve_ok.mp hi)
  simp only [IdChange.add, hn'] at h
  exact ⟨_, h, by simp, by simp [hn, hne]⟩

/-- C141 refuted: a bucket is deleted while another one is added, both calls succeed, and the deleted
bucket is back. -/
theorem C141_deleted_bucket_back_neg {c₀ c₁ c₂ c₃ : Scene ι P.S Identity} {as : List (Act ι)}
    {j k : ι} {i : Identity} {b d : IdBucket} (hb : calls k = .add a b)
    (_hd : calls j = .remove a d.absolutePath)
    (h₁ : Beat (fun k => (calls k).steps P a) E c₀ (.reads k) c₁)
    (hi : a.retrieve P c₀.state = .ok i) (hn : d ∈ i.buckets)
    (h₂ : Play (fun k => (calls k).steps P a) E c₁ as c₂) (_hj : .writes j ∈ as)
    (hk : .writes k ∉ as) (_hjr : c₂.stage j = .returned (.ok ()))
    (h₃ : Beat (fun k => (calls k).steps P a) E c₂ (.writes k) c₃)
    (hr : c₃.stage k = .returned (.ok ())) :
    ∃ i', a.retrieve P c₃.state = .ok i' ∧ d ∈ i'.buckets := by
  obtain ⟨i', e, h⟩ := C141_last_write_wins h₁ hi h₂ hk h₃ hr
  rw [hb] at e h
  obtain rfl := Outcome.ok.inj e
  have hn' := P.names (P.retrieve_ok.mp hi)
  simp only [IdChange.add, hn'] at h
  exact ⟨_, h, by simp [hn]⟩

/-- C141: a session adds and deletes buckets, and nothing else changes its identity. -/
structure BucketCalls (P : IdentityPort) (a : Session) (calls : ι → IdChange) (E : P.S → P.S → Prop) :
    Prop where
  calls : ∀ k, (∃ b, calls k = .add a b) ∨ ∃ path, calls k = .remove a path
  others : ∀ {s t}, E s t → P.view t a.name a.seed = P.view s a.name a.seed

omit [DecidableEq ι] in
theorem BucketCalls.write (h : BucketCalls P a calls E) (k : ι) {i : Identity} (s : P.S)
    (hn : i.name = a.name ∧ i.seed = a.seed) :
    ∃ j, (calls k).make i = .ok j ∧
      ((((calls k).steps P a).write i s).1 = .ok () →
        a.retrieve P (((calls k).steps P a).write i s).2 = .ok j) ∧
      ((((calls k).steps P a).write i s).1 ≠ .ok () → (((calls k).steps P a).write i s).2 = s) := by
  have hj : ∃ j, (calls k).make i = .ok j ∧ j.name = a.name ∧ j.seed = a.seed ∧
      (calls k).password = a.password := by
    rcases h.calls k with ⟨b, e⟩ | ⟨path, e⟩ <;> rw [e] <;>
      exact ⟨_, rfl, hn.1, hn.2, rfl⟩
  obtain ⟨j, hj, h1, h2, h3⟩ := hj
  have e : ((calls k).steps P a).write i s = P.update s i.hash j a.password a.password := by
    simp [IdChange.steps, hj, withOk, h3]
  refine ⟨j, hj, fun hok => ?_, fun hok => ?_⟩
  · rw [e] at hok ⊢
    have := P.update_then_retrieve (Prod.ext hok rfl)
    rwa [h1, h2] at this
  · rw [e] at hok ⊢
    exact P.update_fails hok

omit [DecidableEq ι] in
/-- What holds of the buckets of the stored identity as long as the calls keep it. -/
theorem BucketCalls.keeps [DecidableEq ι] (h : BucketCalls P a calls E) {Q : List IdBucket → Prop} {K : ι → Prop}
    (hQ : ∀ {k i j}, K k → Q i.buckets → (calls k).make i = .ok j → Q j.buckets)
    {c d : Scene ι P.S Identity} {as : List (Act ι)}
    (hp : Play (fun k => (calls k).steps P a) E c as d) (hK : ∀ k, .writes k ∈ as → K k)
    (hc : ∃ i, a.retrieve P c.state = .ok i ∧ Q i.buckets)
    (hs : ∀ k i, .writes k ∈ as → c.stage k = .seen i →
      i.name = a.name ∧ i.seed = a.seed ∧ Q i.buckets) :
    ∃ i, a.retrieve P d.state = .ok i ∧ Q i.buckets := by
  refine Play.keeps (R := fun s => ∃ i, a.retrieve P s = .ok i ∧ Q i.buckets)
    (G := fun i => i.name = a.name ∧ i.seed = a.seed ∧ Q i.buckets) (K := K) ?_ ?_ ?_ hp hK hc hs
  · rintro k s v - ⟨i, hi, hq⟩ hv
    obtain rfl := Outcome.ok.inj (hi.symm.trans hv)
    have hn := P.names (P.retrieve_ok.mp hi)
    exact ⟨hn.1, hn.2, hq⟩
  · rintro k s v hk hR ⟨h1, h2, hq⟩
    obtain ⟨j, hj, hok, hfail⟩ := h.write k s ⟨h1, h2⟩
    by_cases e : (((calls k).steps P a).write v s).1 = .ok ()
    · exact ⟨j, hok e, hQ hk hq hj⟩
    · rw [hfail e]
      exact hR
  · rintro s t ⟨i, hi, hq⟩ hE
    refine ⟨i, P.retrieve_ok.mpr ?_, hq⟩
    rw [h.others hE]
    exact P.retrieve_ok.mp hi

/-- C141, what holds: a bucket whose addition succeeded is kept, however many other calls follow and
overlap, if every call that writes afterwards reads afterwards, too, and none of them deletes its path.
Missing: calls that had already read. -/
theorem C141_added_bucket_kept_partial (hB : BucketCalls P a calls E)
    {c₁ c₂ c₃ : Scene ι P.S Identity} {as : List (Act ι)} {k : ι} {b : IdBucket}
    (hb : calls k = .add a b) {i : Identity} (hi : c₁.stage k = .seen i)
    (hn : i.name = a.name ∧ i.seed = a.seed)
    (h₁ : Beat (fun k => (calls k).steps P a) E c₁ (.writes k) c₂)
    (hr : c₂.stage k = .returned (.ok ()))
    (h₂ : Play (fun k => (calls k).steps P a) E c₂ as c₃)
    (hs : ∀ j, .writes j ∈ as → c₂.stage j = .idle ∧ calls j ≠ .remove a b.absolutePath) :
    ∃ i', a.retrieve P c₃.state = .ok i' ∧ b ∈ i'.buckets := by
  refine hB.keeps (Q := fun bs => b ∈ bs) (K := fun j => calls j ≠ .remove a b.absolutePath) ?_ h₂
    (fun j hj => (hs j hj).2) ?_ ?_
  · intro j x y hj hx hy
    rcases hB.calls j with ⟨d, e⟩ | ⟨path, e⟩
    · rw [e] at hy
      obtain rfl := Outcome.ok.inj hy
      simp [hx]
    · rw [e] at hy
      obtain rfl := Outcome.ok.inj hy
      have : b.absolutePath ≠ path := by rintro rfl; exact hj e
      simp [hx, this]
  · cases h₁ with
    | @writes _ i' hi' =>
      obtain rfl := Stage.seen.inj (hi.symm.trans hi')
      obtain ⟨j, hj, hok, -⟩ := hB.write k c₁.state hn
      simp only [Function.update_self] at hr
      refine ⟨j, hok (Stage.returned.inj hr), ?_⟩
      rw [hb] at hj
      obtain rfl := Outcome.ok.inj hj
      simp
  · intro j x hj hx
    rw [(hs j hj).1] at hx
    cases hx

/-- C141: however the calls interleave, the identity stays, and has no buckets but those it had and
those that were added. -/
theorem C141_nothing_invented (hB : BucketCalls P a calls E) {c d : Scene ι P.S Identity}
    {as : List (Act ι)} (hidle : ∀ k, c.stage k = .idle) {i : Identity}
    (hi : a.retrieve P c.state = .ok i) (hp : Play (fun k => (calls k).steps P a) E c as d) :
    ∃ j, a.retrieve P d.state = .ok j ∧
      ∀ b ∈ j.buckets, b ∈ i.buckets ∨ ∃ k, .writes k ∈ as ∧ calls k = .add a b := by
  refine hB.keeps (Q := fun bs => ∀ b ∈ bs, b ∈ i.buckets ∨ ∃ k, .writes k ∈ as ∧ calls k = .add a b)
    (K := fun k => .writes k ∈ as) ?_ hp (fun _ h => h) ⟨i, hi, fun b h => .inl h⟩ ?_
  · intro k x y hk hx hy b hb
    rcases hB.calls k with ⟨d, e⟩ | ⟨path, e⟩
    · rw [e] at hy
      obtain rfl := Outcome.ok.inj hy
      rcases List.mem_append.mp hb with hb | hb
      · exact hx b hb
      · rw [List.mem_singleton] at hb
        subst hb
        exact .inr ⟨k, hk, e⟩
    · rw [e] at hy
      obtain rfl := Outcome.ok.inj hy
      exact hx b (List.mem_of_mem_filter hb)
  · intro k x _ hx
    rw [hidle k] at hx
    cases hx

/-- C141: what was changed under another hash is not undone: a call that still holds the identity as
it was fails then, and changes nothing. -/
theorem C141_changed_hash_refused {c d : Scene ι P.S Identity} {k : ι} {i : Identity}
    (hk : c.stage k = .seen i)
    (hh : ∀ n sd j, P.view c.state n sd = some (j, a.password) → j.hash ≠ i.hash)
    (h : Beat (fun k => (calls k).steps P a) E c (.writes k) d) :
    d.stage k ≠ .returned (.ok ()) ∧ d.state = c.state := by
  cases h with
  | @writes _ i' hi' =>
    obtain rfl := Stage.seen.inj (hk.symm.trans hi')
    have : (((calls k).steps P a).write i c.state).1 ≠ .ok () ∧
        (((calls k).steps P a).write i c.state).2 = c.state := by
      simp only [IdChange.steps]
      cases (calls k).make i with
      | err m => simp [withOk]
      | crash m => simp [withOk]
      | ok j =>
        simp only [withOk]
        have hf : (P.update c.state i.hash j a.password (calls k).password).1 ≠ .ok () := by
          intro hok
          obtain ⟨n, sd, old, h1, h2, -⟩ := P.update_ok hok
          exact hh n sd old h1 h2
        exact ⟨hf, P.update_fails hf⟩
    refine ⟨fun h => ?_, this.2⟩
    simp only [Function.update_self] at h
    exact this.1 (Stage.returned.inj h)

end

/-! ## C142: changes of the list of peers -/

section
variable {P : PeersPort}

/-- The halves of adding a peer make up the call. -/
theorem addPeer_steps (o : MapOrder) (s : P.S) (host : Bytes) (port : UInt64) (onion : Bool) :
    addPeer P o s host port onion = withOk (peerNow host port (!onion) onion) s fun p =>
      ((PeersChange.add p).steps P o).call s := by
  unfold addPeer
  cases peerNow host port (!onion) onion with
  | err m => rfl
  | crash c => rfl
  | ok p =>
    simp only [withOk, TwoStep.call, PeersChange.steps, PeersChange.add]
    rcases P.retrieve s with (_ | ps) | m | c <;> rfl

/-- The halves of a round of the peer daemon make up the round. -/
theorem peersRound_steps (o : MapOrder) (remote : Peer → Outcome (Option (List Peer))) (s : P.S) :
    peersRound P o remote s =
      match ((PeersChange.gather remote).steps P o).call s with
      | (.ok (), s') => (.again, s')
      | (r, s') => (.returns r, s') := by
  unfold peersRound TwoStep.call
  simp only [PeersChange.steps, PeersChange.gather]
  rcases P.retrieve s with (_ | ps) | m | c
  · rfl
  · simp only [Outcome.bind_ok, Outcome.deref, withOk]
    cases gatherPeers remote ps <;> rfl
  · rfl
  · rfl

/-- C142: adding a peer, or a round of the daemon, with nothing in between. -/
theorem C142_alone_is_the_call {κ : Type} [DecidableEq κ] {Q : PeersPort} {q : MapOrder} {two : κ → PeersChange}
    {F : Q.S → Q.S → Prop} {c : Scene κ Q.S (List Peer)} {k : κ} (h : c.stage k = .idle) :
    ∃ d, Beat (fun k => (two k).steps Q q) F c (.reads k) d ∧
      ((∃ v, ((two k).steps Q q).read c.state = .ok v) ∧ (∃ e, Beat (fun k => (two k).steps Q q) F d (.writes k) e ∧
          e.stage k = .returned (((two k).steps Q q).call c.state).1 ∧
          e.state = (((two k).steps Q q).call c.state).2) ∨
        d.stage k = .returned (((two k).steps Q q).call c.state).1 ∧
          d.state = (((two k).steps Q q).call c.state).2 ∧ d.state = c.state) :=
  C141_alone_is_the_call h

/-- C142, what the calls are: reading and then writing at once is the call of the application, or the
round of the peer daemon. -/
theorem C142_halves_make_the_calls (o : MapOrder) (s : P.S) :
    (∀ host port onion, addPeer P o s host port onion =
      withOk (peerNow host port (!onion) onion) s fun p => ((PeersChange.add p).steps P o).call s) ∧
    ∀ remote, peersRound P o remote s =
      match ((PeersChange.gather remote).steps P o).call s with
      | (.ok (), s') => (.again, s')
      | (r, s') => (.returns r, s') :=
  ⟨addPeer_steps o s, fun remote => peersRound_steps o remote s⟩

variable {ι : Type} [DecidableEq ι] {calls : ι → PeersChange} {o : ι → MapOrder}
  {E : P.S → P.S → Prop}

/-- C142, the cause: a call that succeeds leaves the list it made of what it had read, whatever other
calls did in between. -/
theorem C142_last_write_wins (hP : P.Lawful) {c₀ c₁ c₂ c₃ : Scene ι P.S (List Peer)}
    {as : List (Act ι)} {k : ι} {ps : List Peer}
    (h₁ : Beat (fun k => (calls k).steps P (o k)) E c₀ (.reads k) c₁)
    (hi : P.retrieve c₀.state = .ok (some ps))
    (h₂ : Play (fun k => (calls k).steps P (o k)) E c₁ as c₂) (hk : .writes k ∉ as)
    (h₃ : Beat (fun k => (calls k).steps P (o k)) E c₂ (.writes k) c₃)
    (hr : c₃.stage k = .returned (.ok ())) :
    ∃ all, calls k ps = .ok all ∧ P.retrieve c₃.state = .ok (some (peersNow (o k) all)) := by
  have hv : ((calls k).steps P (o k)).read c₀.state = .ok ps := by
    simp [PeersChange.steps, hi, Outcome.deref]
  obtain ⟨h4, h5⟩ := Play.span h₁ hv h₂ hk h₃
  rw [hr] at h5
  have h5 := (Stage.returned.inj h5).symm
  obtain ⟨all, hj, e, hu⟩ := withOk_eq_ok h5
  have h4 : c₃.state = (P.save c₂.state (peersNow (o k) all)).2 := h4.trans (congrArg Prod.snd e)
  refine ⟨all, hj, ?_⟩
  rw [h4]
  exact hP.save_ok hu

/-- C142 refuted: two peers are added at the same time, both calls succeed, and one of the peers is
not in the list. -/
theorem C142_added_peer_lost_neg (hP : P.Lawful) {c₀ c₁ c₂ c₃ : Scene ι P.S (List Peer)}
    {as : List (Act ι)} {j k : ι} {ps : List Peer} {p q : Peer} (hp : calls k = .add p)
    (_hq : calls j = .add q) (h₁ : Beat (fun k => (calls k).steps P (o k)) E c₀ (.reads k) c₁)
    (hi : P.retrieve c₀.state = .ok (some ps)) (hn : q ∉ ps) (hne : q ≠ p)
    (h₂ : Play (fun k => (calls k).steps P (o k)) E c₁ as c₂) (_hj : .writes j ∈ as)
    (hk : .writes k ∉ as) (_hjr : c₂.stage j = .returned (.ok ()))
    (h₃ : Beat (fun k => (calls k).steps P (o k)) E c₂ (.writes k) c₃)
    (hr : c₃.stage k = .returned (.ok ())) : ∀ qs, P.retrieve c₃.state = .ok (some qs) → q ∉ qs := by
  obtain ⟨all, e, h⟩ := C142_last_write_wins hP h₁ hi h₂ hk h₃ hr
  rw [hp] at e
  obtain rfl := Outcome.ok.inj e
  intro qs hqs hq
  rw [h] at hqs
  simp only [Outcome.ok.injEq, Option.some.injEq] at hqs
  subst hqs
  have := (mem_peersMap _ []).1 q (((o k).perm _).mem_iff.mp hq)
  simp [hn, hne] at this

/-- C142 refuted: a peer that is added successfully during a round of the peer daemon is not in the
list after the round, unless some other peer names it. -/
theorem C142_round_drops_peer_neg (hP : P.Lawful) {c₀ c₁ c₂ c₃ : Scene ι P.S (List Peer)}
    {as : List (Act ι)} {j k : ι} {ps : List Peer} {remote : Peer → Outcome (Option (List Peer))}
    {q : Peer} (hp : calls k = .gather remote)
    (_hq : calls j = .add q) (h₁ : Beat (fun k => (calls k).steps P (o k)) E c₀ (.reads k) c₁)
    (hi : P.retrieve c₀.state = .ok (some ps)) (hn : q ∉ ps)
    (hne : ∀ p ∈ ps, ∀ rs, remote p = .ok (some rs) → q ∉ rs)
    (h₂ : Play (fun k => (calls k).steps P (o k)) E c₁ as c₂) (_hj : .writes j ∈ as)
    (hk : .writes k ∉ as) (_hjr : c₂.stage j = .returned (.ok ()))
    (h₃ : Beat (fun k => (calls k).steps P (o k)) E c₂ (.writes k) c₃)
    (hr : c₃.stage k = .returned (.ok ())) : ∀ qs, P.retrieve c₃.state = .ok (some qs) → q ∉ qs := by
  obtain ⟨all, e, h⟩ := C142_last_write_wins hP h₁ hi h₂ hk h₃ hr
  rw [hp] at e
  obtain ⟨-, g⟩ := gatherPeers_ok e
  intro qs hqs hq
  rw [h] at hqs
  simp only [Outcome.ok.injEq, Option.some.injEq] at hqs
  subst hqs
  have := (mem_peersMap _ []).1 q (((o k).perm _).mem_iff.mp hq)
  simp only [List.not_mem_nil, or_false] at this
  rcases (g q).mp this with h | ⟨p, h1, rs, h2, h3⟩
  · exact hn h
  · exact hne p h1 rs h2 h3

/-- C142: the calls add peers that come from the builder, or are rounds whose remote nodes name such
peers, and nothing else changes the list. -/
structure PeerCalls (P : PeersPort) (calls : ι → PeersChange) (E : P.S → P.S → Prop) : Prop where
  calls : ∀ k, (∃ p, calls k = .add p ∧ p.Built) ∨
    ∃ remote, calls k = .gather remote ∧ ∀ p rs, remote p = .ok (some rs) → ∀ q ∈ rs, q.Built
  others : ∀ {s t}, E s t → P.retrieve t = P.retrieve s

omit [DecidableEq ι] in
theorem PeerCalls.all (h : PeerCalls P calls E) {k : ι} {ps all : List Peer} (he : calls k ps = .ok all) :
    (∀ q, q ∈ all ↔ q ∈ ps ∨ calls k = .add q ∨
      ∃ remote, calls k = .gather remote ∧ ∃ p ∈ ps, ∃ rs, remote p = .ok (some rs) ∧ q ∈ rs) ∧
    ((∀ q ∈ ps, q.Built) → ∀ q ∈ all, q.Built) := by
  have hadd : ∀ {p q : Peer}, (PeersChange.add p = PeersChange.add q) → p = q := by
    intro p q e
    have := congrFun e []
    simpa [PeersChange.add] using this
  have hag : ∀ {p remote}, PeersChange.add p ≠ PeersChange.gather remote := by
    intro p remote e
    have := congrFun e []
    simp [PeersChange.add, PeersChange.gather, gatherPeers] at this
  have hgg : ∀ {r r'}, PeersChange.gather r = PeersChange.gather r' → ∀ {p rs}, r p = .ok (some rs) →
      ∀ q ∈ rs, q = p ∨ ∃ rs', r' p = .ok (some rs') ∧ q ∈ rs' := by
    intro r r' e p rs h q hq
    have h1 := congrFun e [p]
    have h2 : gatherPeers r [p] = .ok (p :: rs ++ []) := by simp [gatherPeers, h, Outcome.deref]
    have h3 := gatherPeers_ok (h1.symm.trans h2)
    rcases (h3.2 q).mp (by simp [hq]) with h | ⟨p', hp', rs', h5, h6⟩
    · exact .inl (by simpa using h)
    · simp only [List.mem_singleton] at hp'
      subst hp'
      exact .inr ⟨rs', h5, h6⟩
  rcases h.calls k with ⟨p, e, hp⟩ | ⟨remote, e, hr⟩
  · rw [e] at he
    obtain rfl := Outcome.ok.inj he
    refine ⟨fun q => ?_, fun hb q hq => ?_⟩
    · rw [e]
      simp only [List.mem_append, List.mem_singleton, hag, false_and, exists_false, or_false]
      exact or_congr_right ⟨fun h => by rw [h], fun h => (hadd h).symm⟩
    · rcases List.mem_append.mp hq with hq | hq
      · exact hb q hq
      · simp at hq; rw [hq]; exact hp
  · rw [e] at he
    obtain ⟨-, g⟩ := gatherPeers_ok he
    refine ⟨fun q => ?_, fun hb q hq => ?_⟩
    · rw [g, e]
      have : ∀ q, PeersChange.gather remote ≠ PeersChange.add q := fun q h => hag h.symm
      simp only [this, false_or]
      refine ⟨?_, ?_⟩
      · rintro (h | ⟨p, h1, rs, h2, h3⟩)
        · exact .inl h
        · exact .inr ⟨remote, rfl, p, h1, rs, h2, h3⟩
      · rintro (h | ⟨r', e', p, h1, rs, h2, h3⟩)
        · exact .inl h
        · rcases hgg e'.symm h2 q h3 with rfl | ⟨rs', h4, h5⟩
          · exact .inl h1
          · exact .inr ⟨p, h1, rs', h4, h5⟩
    · rcases (g q).mp hq with h | ⟨p, -, rs, h2, h3⟩
      · exact hb q h
      · exact hr p rs h2 q h3

omit [DecidableEq ι] in
/-- What holds of the stored list as long as the calls keep it. -/
theorem PeerCalls.keeps [DecidableEq ι] (hP : P.Lawful) (h : PeerCalls P calls E)
    {Q : List Peer → Prop} {K : ι → Prop}
    (hQ : ∀ {k ps all qs}, K k → Q ps → calls k ps = .ok all → (∀ q, q ∈ qs ↔ q ∈ all) → Q qs)
    {c d : Scene ι P.S (List Peer)} {as : List (Act ι)}
    (hp : Play (fun k => (calls k).steps P (o k)) E c as d) (hK : ∀ k, .writes k ∈ as → K k)
    (hc : ∃ ps, P.retrieve c.state = .ok (some ps) ∧ Q ps ∧ ∀ q ∈ ps, q.Built)
    (hs : ∀ k ps, .writes k ∈ as → c.stage k = .seen ps → Q ps ∧ ∀ q ∈ ps, q.Built) :
    ∃ ps, P.retrieve d.state = .ok (some ps) ∧ Q ps ∧ ∀ q ∈ ps, q.Built := by
  refine Play.keeps (R := fun s => ∃ ps, P.retrieve s = .ok (some ps) ∧ Q ps ∧ ∀ q ∈ ps, q.Built)
    (G := fun ps => Q ps ∧ ∀ q ∈ ps, q.Built) (K := K) ?_ ?_ ?_ hp hK hc hs
  · rintro k s v - ⟨ps, h1, hq⟩ hv
    simp only [PeersChange.steps, h1, Outcome.bind_ok, Outcome.deref, Outcome.ok.injEq] at hv
    subst hv
    exact hq
  · rintro k s v hk hR ⟨hq, hb⟩
    simp only [PeersChange.steps]
    cases e : calls k v with
    | err m => exact hR
    | crash m => exact hR
    | ok all =>
      simp only [withOk]
      by_cases hok : (P.save s (peersNow (o k) all)).1 = .ok ()
      · have hball := (h.all e).2 hb
        obtain ⟨-, k2⟩ := C63_builder_keeps_distinct (o k) hball
        exact ⟨_, hP.save_ok hok, hQ hk hq e k2, fun q hq => hball q ((k2 q).mp hq)⟩
      · rw [hP.save_fails hok]
        exact hR
  · rintro s t ⟨ps, h1, hq⟩ hE
    exact ⟨ps, (h.others hE).trans h1, hq⟩

/-- C142, what holds: a peer that was added successfully is kept, however many other calls and rounds
follow and overlap, if every call that writes afterwards reads afterwards, too. Missing: calls that had
already read. -/
theorem C142_added_peer_kept_partial (hP : P.Lawful) (hB : PeerCalls P calls E)
    {c₁ c₂ c₃ : Scene ι P.S (List Peer)} {as : List (Act ι)} {k : ι} {p : Peer}
    (hp : calls k = .add p) {ps : List Peer} (hi : c₁.stage k = .seen ps) (hb : ∀ q ∈ ps, q.Built)
    (h₁ : Beat (fun k => (calls k).steps P (o k)) E c₁ (.writes k) c₂)
    (hr : c₂.stage k = .returned (.ok ()))
    (h₂ : Play (fun k => (calls k).steps P (o k)) E c₂ as c₃)
    (hs : ∀ j, .writes j ∈ as → c₂.stage j = .idle) : Knows P c₃.state p := by
  suffices h : ∃ qs, P.retrieve c₃.state = .ok (some qs) ∧ p ∈ qs ∧ ∀ q ∈ qs, q.Built by
    obtain ⟨qs, h1, h2, -⟩ := h
    exact ⟨qs, h1, h2⟩
  refine hB.keeps hP (Q := fun qs => p ∈ qs) (K := fun _ => True) ?_ h₂ (fun _ _ => trivial) ?_ ?_
  · intro j x y qs _ hx hy hqs
    rw [hqs]
    exact ((hB.all hy).1 p).mpr (.inl hx)
  · cases h₁ with
    | @writes _ ps' hps' =>
      obtain rfl := Stage.seen.inj (hi.symm.trans hps')
      simp only [Function.update_self] at hr
      have hr := Stage.returned.inj hr
      obtain ⟨all, e, e2, hu⟩ := withOk_eq_ok hr
      have hball := (hB.all e).2 hb
      obtain ⟨-, k2⟩ := C63_builder_keeps_distinct (o k) hball
      have he : (((calls k).steps P (o k)).write ps c₁.state).2 =
        (P.save c₁.state (peersNow (o k) all)).2 := congrArg Prod.snd e2
      refine ⟨_, (congrArg P.retrieve he).trans (hP.save_ok hu), ?_,
        fun q hq => hball q ((k2 q).mp hq)⟩
      rw [k2]
      exact ((hB.all e).1 p).mpr (.inr (.inl hp))
  · intro j x hj hx
    rw [hs j hj] at hx
    cases hx

/-- C142: however calls and rounds interleave, every peer that was in the list at the beginning stays,
and every peer of the list was there, was added, or was named by a remote node. -/
theorem C142_known_peers_stay (hP : P.Lawful) (hB : PeerCalls P calls E)
    {c d : Scene ι P.S (List Peer)} {as : List (Act ι)} (hidle : ∀ k, c.stage k = .idle)
    {ps : List Peer} (hi : P.retrieve c.state = .ok (some ps)) (hb : ∀ q ∈ ps, q.Built)
    (hp : Play (fun k => (calls k).steps P (o k)) E c as d) :
    ∃ qs, P.retrieve d.state = .ok (some qs) ∧ (∀ p ∈ ps, p ∈ qs) ∧
      ∀ q ∈ qs, q ∈ ps ∨ ∃ k, .writes k ∈ as ∧ (calls k = .add q ∨
        ∃ remote p rs, calls k = .gather remote ∧ remote p = .ok (some rs) ∧ q ∈ rs) := by
  obtain ⟨qs, h1, ⟨h2, h3⟩, -⟩ := hB.keeps hP (o := o) (Q := fun qs => (∀ p ∈ ps, p ∈ qs) ∧
      ∀ q ∈ qs, q ∈ ps ∨ ∃ k, .writes k ∈ as ∧ (calls k = .add q ∨
        ∃ remote p rs, calls k = .gather remote ∧ remote p = .ok (some rs) ∧ q ∈ rs))
    (K := fun k => .writes k ∈ as) (by
      rintro k x y qs hk ⟨hx1, hx2⟩ hy hqs
      refine ⟨fun p hp => (hqs p).mpr (((hB.all hy).1 p).mpr (.inl (hx1 p hp))), fun q hq => ?_⟩
      rcases ((hB.all hy).1 q).mp ((hqs q).mp hq) with h | h | ⟨remote, e, p, -, rs, h1, h2⟩
      · exact hx2 q h
      · exact .inr ⟨k, hk, .inl h⟩
      · exact .inr ⟨k, hk, .inr ⟨remote, p, rs, e, h1, h2⟩⟩) hp (fun _ h => h)
    ⟨ps, hi, ⟨fun p h => h, fun q h => .inl h⟩, hb⟩ (by
      intro k x _ hx
      rw [hidle k] at hx
      cases hx)
  exact ⟨qs, h1, h2, h3⟩

end

section examples

attribute [local instance] toyCurve toySha

/-- Reading, when there is something to read. -/
theorem Beat.reads_ok {ι S V : Type} [DecidableEq ι] {calls : ι → TwoStep S V} {E : S → S → Prop}
    {c : Scene ι S V} {k : ι} {v : V} (h : c.stage k = .idle) (hv : (calls k).read c.state = .ok v) :
    Beat calls E c (.reads k) ⟨c.state, Function.update c.stage k (.seen v)⟩ := by
  have := Beat.reads (calls := calls) (E := E) h
  rwa [hv] at this

/-- Writing a change, when the stored identity has the hash of the one that was read. -/
theorem toy_write {a : Session} {ι : Type} [DecidableEq ι] {calls : ι → IdChange}
    {E : (referencePort (C := toyCurve)).S → (referencePort (C := toyCurve)).S → Prop}
    {c : Scene ι (referencePort (C := toyCurve)).S Identity} {k : ι} {i i' j : Identity}
    (h : c.stage k = .seen i) (hj : a.retrieve referencePort c.state = .ok j) (hh : j.hash = i.hash)
    (hm : (calls k).make i = .ok i') (hp : (calls k).password = a.password)
    (hn : i'.name = a.name ∧ i'.seed = a.seed) : ∃ s,
    Beat (fun k => (calls k).steps referencePort a) E c (.writes k)
      ⟨s, Function.update c.stage k (.returned (.ok ()))⟩ ∧
    a.retrieve referencePort s = .ok i' := by
  have hb := Beat.writes (calls := fun k => (calls k).steps referencePort a) (E := E) h
  have hu := reference_update (j := i') (q := a.password) (referencePort.retrieve_ok.mp hj)
  rw [hh] at hu
  have e : ((calls k).steps referencePort a).write i c.state =
      referencePort.update c.state i.hash i' a.password a.password := by
    simp [IdChange.steps, hm, hp, withOk]
  simp only [e, hu] at hb
  refine ⟨_, hb, ?_⟩
  have := referencePort.update_then_retrieve (Prod.ext hu rfl)
  obtain ⟨n, p, sd⟩ := a
  obtain ⟨rfl, rfl⟩ := hn
  exact this

/-- C141: two additions to one identity, at the same time: read, read, write, write. The first one is
lost, though both succeed; a third one, later, keeps the second. -/
example : ∃ (P : IdentityPort) (a : Session) (c d e : Scene (Fin 3) P.S Identity)
    (calls : Fin 3 → IdChange) (b : Fin 3 → IdBucket) (i j : Identity),
    (∀ k, calls k = .add a (b k)) ∧ BucketCalls P a calls (fun s t => s = t) ∧
    (∀ k, c.stage k = .idle) ∧
    Play (fun k => (calls k).steps P a) (fun s t => s = t) c [.reads 0, .reads 1, .writes 0, .writes 1]
      d ∧
    d.stage 0 = .returned (.ok ()) ∧ d.stage 1 = .returned (.ok ()) ∧
    a.retrieve P d.state = .ok i ∧ b 0 ∉ i.buckets ∧ b 1 ∈ i.buckets ∧
    Play (fun k => (calls k).steps P a) (fun s t => s = t) d [.reads 2, .other, .writes 2] e ∧
    a.retrieve P e.state = .ok j ∧ b 1 ∈ j.buckets ∧ b 2 ∈ j.buckets := by
  obtain ⟨s, i, hnew, -, hv⟩ := toy_account (ascii "x") (ascii "x") (by decide)
  have hb : referencePort.view s (ascii "bob") (ascii "x") = some (i, ascii "x") := by rw [hv]; simp
  have hnil : i.buckets = [] := by
    unfold newIdentity at hnew
    obtain ⟨j, hj, e, hins⟩ := withOk_eq_ok (b := ()) (by rw [hnew])
    rw [e] at hnew
    have h2 := (referencePort.insert_ok hins).2
    rw [hnew] at h2
    obtain ⟨-, -, -, -, rfl⟩ := identityNow_eq_ok.mp hj
    simp only [h2, IdentityView.set, and_self, if_true, Option.some.injEq, Prod.mk.injEq] at hb
    rw [← hb.1]
  let b : Fin 3 → IdBucket := fun k => ⟨fromBytes [1], ⟨fromBytes [1], [], 1⟩, [47], [k.val.toUInt8], 5⟩
  have b01 : b 0 ≠ b 1 := by
    intro h
    have := congrArg IdBucket.pk h
    revert this
    decide
  let a : Session := ⟨ascii "bob", ascii "x", ascii "x"⟩
  have hn := referencePort.names hb
  have hi : a.retrieve referencePort s = .ok i := referencePort.retrieve_ok.mpr hb
  let c : Scene (Fin 3) (referencePort (C := toyCurve)).S Identity := ⟨s, fun _ => .idle⟩
  let calls : Fin 3 → IdChange := fun k => .add a (b k)
  have h1 := Beat.reads_ok (calls := fun k => (calls k).steps referencePort a) (E := fun s t => s = t)
    (c := c) (k := 0) rfl hi
  obtain ⟨c1, ec1⟩ : ∃ x, x = (⟨c.state, Function.update c.stage 0 (.seen i)⟩ :
    Scene (Fin 3) (referencePort (C := toyCurve)).S Identity) := ⟨_, rfl⟩
  rw [← ec1] at h1
  have h2 := Beat.reads_ok (calls := fun k => (calls k).steps referencePort a) (E := fun s t => s = t)
    (c := c1) (k := 1) (by rw [ec1]; rfl) (by rw [ec1]; exact hi)
  obtain ⟨c2, ec2⟩ : ∃ x, x = (⟨c1.state, Function.update c1.stage 1 (.seen i)⟩ :
    Scene (Fin 3) (referencePort (C := toyCurve)).S Identity) := ⟨_, rfl⟩
  rw [← ec2] at h2
  obtain ⟨s3, h3, r3⟩ := toy_write (a := a) (calls := calls) (E := fun s t => s = t) (c := c2) (k := 0)
    (i := i) (j := i) (by rw [ec2, ec1]; rfl) (by rw [ec2, ec1]; exact hi) rfl rfl rfl hn
  obtain ⟨c3, ec3⟩ : ∃ x, x = (⟨s3, Function.update c2.stage 0 (.returned (.ok ()))⟩ :
    Scene (Fin 3) (referencePort (C := toyCurve)).S Identity) := ⟨_, rfl⟩
  rw [← ec3] at h3
  obtain ⟨s4, h4, r4⟩ := toy_write (a := a) (calls := calls) (E := fun s t => s = t) (c := c3) (k := 1)
    (i := i) (j := { i with buckets := i.buckets ++ [b 0] }) (by rw [ec3, ec2, ec1]; rfl) (by rw [ec3]; exact r3) rfl rfl rfl hn
  obtain ⟨c4, ec4⟩ : ∃ x, x = (⟨s4, Function.update c3.stage 1 (.returned (.ok ()))⟩ :
    Scene (Fin 3) (referencePort (C := toyCurve)).S Identity) := ⟨_, rfl⟩
  rw [← ec4] at h4
  have h5 := Beat.reads_ok (calls := fun k => (calls k).steps referencePort a) (E := fun s t => s = t)
    (c := c4) (k := 2) (by rw [ec4, ec3, ec2, ec1]; rfl) (by rw [ec4]; exact r4)
  obtain ⟨i4, ei4⟩ : ∃ x, x = ({ i with buckets := i.buckets ++ [b 1] } : Identity) := ⟨_, rfl⟩
  rw [← ei4] at h5 r4
  obtain ⟨c5, ec5⟩ : ∃ x, x = (⟨c4.state, Function.update c4.stage 2 (.seen i4)⟩ :
    Scene (Fin 3) (referencePort (C := toyCurve)).S Identity) := ⟨_, rfl⟩
  rw [← ec5] at h5
  obtain ⟨s6, h6, r6⟩ := toy_write (a := a) (calls := calls) (E := fun s t => s = t) (c := c5) (k := 2)
    (i := i4) (j := i4) (by rw [ec5]; rfl) (by rw [ec5, ec4]; exact r4) rfl rfl rfl (by rw [ei4]; exact hn)
  refine ⟨referencePort, a, c, c4, _, calls, b, i4, _, fun _ => rfl, ⟨fun k => .inl ⟨b k, rfl⟩, ?_⟩,
    fun _ => rfl, .cons h1 (.cons h2 (.cons h3 (.cons h4 (.nil _)))), by rw [ec4, ec3]; rfl,
    by rw [ec4]; rfl, by rw [ec4]; exact r4, by simp [ei4, hnil, b01], by simp [ei4],
    .cons h5 (.cons (.other (s := c5.state) rfl) (.cons h6 (.nil _))), r6, by simp [ei4], by simp⟩
  intro s t h
  rw [h]

/-- C141: an addition that has read a bucket which is then deleted brings it back. -/
example : ∃ (P : IdentityPort) (a : Session) (c d : Scene Bool P.S Identity)
    (calls : Bool → IdChange) (b x : IdBucket) (i j : Identity),
    calls true = .add a b ∧ calls false = .remove a x.absolutePath ∧ (∀ k, c.stage k = .idle) ∧
    a.retrieve P c.state = .ok i ∧ x ∈ i.buckets ∧
    Play (fun k => (calls k).steps P a) (fun s t => s = t) c
      [.reads true, .reads false, .writes false, .writes true] d ∧
    d.stage true = .returned (.ok ()) ∧ d.stage false = .returned (.ok ()) ∧
    a.retrieve P d.state = .ok j ∧ x ∈ j.buckets := by
  obtain ⟨s₀, i₀, -, -, hv⟩ := toy_account (ascii "x") (ascii "x") (by decide)
  have hb : referencePort.view s₀ (ascii "bob") (ascii "x") = some (i₀, ascii "x") := by rw [hv]; simp
  have hn := referencePort.names hb
  let a : Session := ⟨ascii "bob", ascii "x", ascii "x"⟩
  let b : IdBucket := ⟨fromBytes [1], ⟨fromBytes [1], [], 1⟩, [47], [1], 5⟩
  let x : IdBucket := ⟨fromBytes [2], ⟨fromBytes [1], [], 1⟩, [47, 47], [2], 5⟩
  have hi₀ : a.retrieve referencePort s₀ = .ok i₀ := referencePort.retrieve_ok.mpr hb
  obtain ⟨s, i, hi, hx, hni⟩ : ∃ s i, a.retrieve referencePort s = .ok i ∧ x ∈ i.buckets ∧
      i.name = a.name ∧ i.seed = a.seed := by
    obtain ⟨s, -, hs⟩ := toy_write (a := a) (ι := Unit) (calls := fun _ => .add a x)
      (E := fun s t => s = t) (c := ⟨s₀, fun _ => .seen i₀⟩) (k := ()) rfl hi₀ rfl rfl rfl hn
    exact ⟨s, _, hs, by simp, hn⟩
  let c : Scene Bool (referencePort (C := toyCurve)).S Identity := ⟨s, fun _ => .idle⟩
  let calls : Bool → IdChange := fun k => if k then .add a b else .remove a x.absolutePath
  have h1 := Beat.reads_ok (calls := fun k => (calls k).steps referencePort a) (E := fun s t => s = t)
    (c := c) (k := true) rfl hi
  obtain ⟨c1, ec1⟩ : ∃ x, x = (⟨c.state, Function.update c.stage true (.seen i)⟩ :
    Scene Bool (referencePort (C := toyCurve)).S Identity) := ⟨_, rfl⟩
  rw [← ec1] at h1
  have h2 := Beat.reads_ok (calls := fun k => (calls k).steps referencePort a) (E := fun s t => s = t)
    (c := c1) (k := false) (by rw [ec1]; rfl) (by rw [ec1]; exact hi)
  obtain ⟨c2, ec2⟩ : ∃ x, x = (⟨c1.state, Function.update c1.stage false (.seen i)⟩ :
    Scene Bool (referencePort (C := toyCurve)).S Identity) := ⟨_, rfl⟩
  rw [← ec2] at h2
  obtain ⟨s3, h3, r3⟩ := toy_write (a := a) (calls := calls) (E := fun s t => s = t) (c := c2)
    (k := false) (i := i) (j := i) (by rw [ec2]; rfl) (by rw [ec2, ec1]; exact hi) rfl rfl rfl hni
  obtain ⟨c3, ec3⟩ : ∃ x, x = (⟨s3, Function.update c2.stage false (.returned (.ok ()))⟩ :
    Scene Bool (referencePort (C := toyCurve)).S Identity) := ⟨_, rfl⟩
  rw [← ec3] at h3
  obtain ⟨s4, h4, r4⟩ := toy_write (a := a) (calls := calls) (E := fun s t => s = t) (c := c3)
    (k := true) (i := i)
    (j := { i with buckets := i.buckets.filter fun y => decide (y.absolutePath ≠ x.absolutePath) })
    (by rw [ec3, ec2, ec1]; rfl) (by rw [ec3]; exact r3) rfl rfl rfl hni
  exact ⟨referencePort, a, c, _, calls, b, x, i, _, rfl, rfl, fun _ => rfl, hi, hx,
    .cons h1 (.cons h2 (.cons h3 (.cons h4 (.nil _)))), rfl, by rw [ec3]; rfl, r4, by simp [hx]⟩

/-- C141: a call holds an identity whose hash is not the stored one any more. -/
example : ∃ (P : IdentityPort) (a : Session) (c : Scene Unit P.S Identity) (i j : Identity),
    c.stage () = .seen i ∧ a.retrieve P c.state = .ok j ∧
    ∀ n sd x, P.view c.state n sd = some (x, a.password) → x.hash ≠ i.hash := by
  obtain ⟨s, i, -, -, hv⟩ := toy_account (ascii "x") (ascii "x") (by decide)
  have hb : referencePort.view s (ascii "bob") (ascii "x") = some (i, ascii "x") := by rw [hv]; simp
  obtain ⟨h, hh⟩ : ∃ h : Hash, i.hash ≠ h := by
    by_cases e : i.hash = fromBytes [1]
    · exact ⟨fromBytes [2], by rw [e]; decide⟩
    · exact ⟨_, e⟩
  refine ⟨referencePort, ⟨ascii "bob", ascii "x", ascii "x"⟩, ⟨s, fun _ => .seen { i with hash := h }⟩,
    { i with hash := h }, i, rfl, referencePort.retrieve_ok.mpr hb, fun n sd x hx => ?_⟩
  rw [hv] at hx
  simp only at hx
  split at hx
  · cases hx
    exact hh
  · cases hx

/-- C142: a peer is added during a round of the peer daemon, and lost; the peer that was there before
stays. -/
example : ∃ (calls : Bool → PeersChange) (c d : Scene Bool toyPeersPort.S (List Peer)) (p q : Peer),
    toyPeersPort.Lawful ∧ PeerCalls toyPeersPort calls (fun s t => s = t) ∧
    (∀ k, c.stage k = .idle) ∧ c.state = [p] ∧ p.Built ∧
    calls true = .add q ∧ calls false = .gather (fun _ => .ok (some [p])) ∧
    Play (fun k => (calls k).steps toyPeersPort ⟨id, fun _ => List.Perm.refl _⟩) (fun s t => s = t) c
      [.reads false, .reads true, .writes true, .writes false] d ∧
    d.stage true = .returned (.ok ()) ∧ d.stage false = .returned (.ok ()) ∧ d.state = [p] ∧ q ≠ p := by
  let p : Peer := ⟨ascii "a", 1, true, false⟩
  let q : Peer := ⟨ascii "b", 2, false, true⟩
  have hp : p.Built := ⟨ascii "a", 1, true, false, rfl⟩
  have hq : q.Built := ⟨ascii "b", 2, false, true, rfl⟩
  let calls : Bool → PeersChange := fun k => if k then .add q else .gather (fun _ => .ok (some [p]))
  refine ⟨calls, ⟨[p], fun _ => .idle⟩, _, p, q, ⟨fun _ => rfl, fun h => absurd rfl h⟩, ⟨?_, ?_⟩,
    fun _ => rfl, rfl, hp, rfl, rfl, .cons (.reads rfl) (.cons (.reads rfl) (.cons
      (.writes (v := [p]) rfl) (.cons (.writes (v := [p]) rfl) (.nil _)))), rfl, rfl, rfl, by decide⟩
  · rintro (_ | _)
    · refine .inr ⟨_, rfl, ?_⟩
      intro r rs h x hx
      simp only [Outcome.ok.injEq, Option.some.injEq] at h
      subst h
      simp only [List.mem_singleton] at hx
      subst hx
      exact hp
    · exact .inl ⟨q, rfl, hq⟩
  · intro s t h
    rw [h]

end examples

end Verif
