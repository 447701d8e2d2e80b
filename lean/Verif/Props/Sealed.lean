import Verif.Model.Identities.Sealed
import Verif.Props.Files
import Verif.Props.Absent
import Verif.Props.Text

/-!
# Identities in encrypted files

C149: what is read of an encrypted identity file: what was saved, when nobody else writes to it. The
encryption does not detect changes: without the password, the wallets and the buckets can be cut off.
-/

namespace Verif

section
variable [Sha512] [K : Cipher]

/-- C149: after a successful save and any calls that do not successfully touch its file, an identity is read
with the same password as it was saved, except for the time of its last update. -/
theorem C149_sealed_identity_comes_back_partial (w : Place) {d : Disk} (hd : d.Sound) (password iv : Bytes)
    (hiv : iv.length = 16) {i : TrIdentity} (h : i.Built)
    (hs : Utf8 i.seed) (hn : Utf8 i.name) (hr : Utf8 i.root)
    (hok : (sealTrIdentity w password d i iv).1 = .ok ()) (ops : List FileOp)
    (hops : lastSaid w.resolve (w.resolve (identityFile i.hash i.seed))
      (ops.zip (runOps (diskStep w) (sealTrIdentity w password d i iv).2 ops).1) = .nothing)
    {t₁ t₂ : Time} (ht : i.createdOn ≤ t₂) :
    ∃ j, unsealTrIdentity w password (runOps (diskStep w) (sealTrIdentity w password d i iv).2 ops).2
      i.hash i.seed t₁ t₂ = .ok j ∧ SameIdentity i j := by
  unfold sealTrIdentity at hok hops ⊢
  cases hb : jTrIdentityC.text i.toJSON with
  | none => simp [hb] at hok
  | some b =>
    simp only [hb] at hok hops ⊢
    have hc := C52_store_returns_saved w hd password iv _ b hiv hok ops hops _ rfl
    have h1 := (jTrIdentityC_good _).read hb
    refine ⟨⟨i.hash, jsonText i.seed, jsonText i.name, jsonText i.root, keepNonEmpty i.wallets,
      keepNonEmpty i.buckets, i.createdOn, t₂⟩, ?_, ?_⟩
    · unfold unsealTrIdentity
      rw [hc]
      change (match jTrIdentityC.read b with | none => _ | some ins => trIdentityFromJSON ins t₁ t₂) = _
      rw [h1]
      refine Eq.trans ?_ (trIdentity_json h ht (t₁ := t₁))
      change trIdentityFromJSON ⟨jsonText i.hash.str, jsonText i.seed, jsonText i.name, jsonText i.root,
        ((i.wallets.getD []).map Hash.str).map jsonText, ((i.buckets.getD []).map Hash.str).map jsonText,
        i.createdOn⟩ t₁ t₂ = _
      simp only [trIdentityFromJSON, TrIdentity.toJSON, jsonText_hash, map_jsonText_hash,
        fun b => jsonText_of_utf8 (jsonText_utf8 b)]
    · constructor <;> simp [jsonText_of_utf8, hs, hn, hr, keepNonEmpty_getD]

/-- C149: reading never panics, whatever is on the disk and whatever the password. -/
theorem C149_never_panics (w : Place) (password : Bytes) (d : Disk) (hash : Hash) (seed : Bytes)
    (t₁ t₂ : Time) (c : Crash) : unsealTrIdentity w password d hash seed t₁ t₂ ≠ .crash c := by
  have hd : (encRetrieve w password d (identityFile hash seed)).Calm := by
    unfold encRetrieve
    refine Outcome.Calm.bind ?_ fun a _ => ?_
    · unfold diskRetrieve
      split <;> first | exact .ok _ | exact .err _
    · unfold decrypt decryptWith
      split
      · exact .err _
      · split
        · exact .err _
        · exact .ok _
  have hh : ∀ l, (hashesIfAny l).Calm := by
    intro l
    unfold hashesIfAny
    split
    · exact .bind (.mapO fun x _ => fromString_calm x) fun _ _ => .ok _
    · exact .ok _
  refine Outcome.Calm.bind hd (fun js _ => ?_) c
  split
  · exact .err _
  · refine .bind (fromString_calm _) fun _ _ => .bind (hh _) fun _ _ => .bind (hh _) fun _ _ => ?_
    have hg : ∀ (b : Bool) (m : String), (Outcome.guardNot b m).Calm := by
      intro b m
      cases b
      · exact .ok _
      · exact .err _
    refine .bind (.ok _) fun _ _ => .bind (hg _ _) fun _ _ => .bind (hg _ _) fun _ _ => .bind (hg _ _) fun _ _ =>
      .bind ?_ fun _ _ => .ok _
    unfold MutableBuilder.now
    dsimp only
    split
    · exact .err _
    · exact .ok _

omit [Sha512] K in
/-- The text of an identity, up to its wallets, and with the wallets left out. -/
theorem trIdentity_cut {i : TrIdentity} {b : Bytes} (hb : jTrIdentityC.text i.toJSON = some b) :
    ∃ ms x rest, jTrIdentityC.enc i.toJSON = some (.obj ms) ∧ b = x ++ 44 :: rest ∧
      (Json.obj (ms.filter fun m => m.1 ≠ ascii "wallets" ∧ m.1 ≠ ascii "buckets" ∧
        m.1 ≠ ascii "created_on")).render = x ++ [125] := by
  unfold Codec.text at hb
  obtain ⟨v, hv, rfl⟩ := Option.map_eq_some_iff.mp hb
  have hv' := hv
  unfold jTrIdentityC structC at hv
  simp only [Option.map_eq_some_iff, List.mapM_cons, List.mapM_nil, Option.pure_def, Option.bind_eq_bind,
    Option.bind_eq_some_iff, writeMember, fld, Option.some.injEq] at hv
  obtain ⟨_, ⟨_, ⟨j1, -, rfl⟩, _, ⟨_, ⟨j2, -, rfl⟩, _, ⟨_, ⟨j3, -, rfl⟩, _, ⟨_, ⟨j4, -, rfl⟩, _, ⟨_, ⟨j5, -, rfl⟩, _,
    ⟨_, ⟨j6, -, rfl⟩, _, ⟨_, ⟨j7, -, rfl⟩, _, rfl, rfl⟩, rfl⟩, rfl⟩, rfl⟩, rfl⟩, rfl⟩, rfl⟩, rfl⟩ := hv
  refine ⟨_, 123 :: 34 :: (ascii "hash" ++ 34 :: 58 :: (j1.render ++ 44 :: 34 :: (ascii "seed" ++ 34 :: 58 ::
    (j2.render ++ 44 :: 34 :: (ascii "name" ++ 34 :: 58 :: (j3.render ++ 44 :: 34 :: (ascii "root" ++ 34 :: 58 ::
    j4.render))))))), 34 :: (ascii "wallets" ++ 34 :: 58 :: (j5.render ++
    renderMembers [(ascii "buckets", j6), (ascii "created_on", j7)])), hv', ?_, ?_⟩
  · simp only [Json.render, renderMembers, List.append_assoc, List.cons_append]
  · have k1 : ∀ m ∈ [ascii "hash", ascii "seed", ascii "name", ascii "root"], m ≠ ascii "wallets" ∧
        m ≠ ascii "buckets" ∧ m ≠ ascii "created_on" := by decide +kernel
    simp only [List.forall_mem_cons] at k1
    obtain ⟨k1, k2, k3, k4, -⟩ := k1
    simp [k1, k2, k3, k4, Json.render, renderMembers]

/-- C149: the encrypted file of an identity, after a successful save. -/
theorem sealed_file (w : Place) {d : Disk} (hd : d.Sound) (password iv : Bytes) {i : TrIdentity}
    (hok : (sealTrIdentity w password d i iv).1 = .ok ()) :
    ∃ b, jTrIdentityC.text i.toJSON = some b ∧
      diskRetrieve w (sealTrIdentity w password d i iv).2 (identityFile i.hash i.seed) =
        .ok (encrypt password iv b) := by
  unfold sealTrIdentity at hok ⊢
  cases hb : jTrIdentityC.text i.toJSON with
  | none => simp [hb] at hok
  | some b =>
    simp only [hb] at hok ⊢
    refine ⟨b, rfl, ?_⟩
    have h := (runDisk_content w [.save (identityFile i.hash i.seed) (encrypt password iv b)] hd).2
      (w.resolve (identityFile i.hash i.seed))
    simp only [runOps, diskStep, List.zip_cons_cons, List.zip_nil_right, lastSaid] at h
    unfold encSave at hok ⊢
    simp only [hok, FileOp.rel] at h
    rw [diskRetrieve_iff, h]
    simp

/-- C149: saving fails only when the file cannot be written or when the creation time is outside of the years
that have a text. -/
theorem C149_save_succeeds_iff (w : Place) (password iv : Bytes) (d : Disk) (i : TrIdentity) :
    (sealTrIdentity w password d i iv).1 = .ok () ↔ Dated i.createdOn ∧
      ∀ b, jTrIdentityC.text i.toJSON = some b →
        (diskSave w d (identityFile i.hash i.seed) (encrypt password iv b)).1 = .ok () := by
  have hw : (jTrIdentityC.text i.toJSON).isSome ↔ Dated i.createdOn := by
    refine Iff.trans (Iff.of_eq (congrArg (· = true) Option.isSome_map)) (structC_writes.trans ?_)
    simp only [List.forall_mem_cons, fld, List.not_mem_nil, false_imp_iff, implies_true, and_true,
      strC_writes, true_and, timeC_writes, listC_writes]
    rfl
  rw [← hw]
  unfold sealTrIdentity encSave
  cases jTrIdentityC.text i.toJSON <;> simp

/-- C149 (negation): without the password, and without knowing anything but the position at which the wallets
start in the text, a stored file can be changed so that it is read without an error as the same identity with
no wallets, no buckets and the creation time 0. -/
theorem C149_wallets_cut_off_neg : ∃ forge : ℕ → Bytes → Bytes, ∀ i : TrIdentity, i.Built →
    ∃ n, ∀ (w : Place) (password iv : Bytes) (d d' : Disk) (file : Bytes) (t₁ t₂ : Time),
      d.Sound → iv.length = 16 → (sealTrIdentity w password d i iv).1 = .ok () →
      diskRetrieve w (sealTrIdentity w password d i iv).2 (identityFile i.hash i.seed) = .ok file →
      diskRetrieve w d' (identityFile i.hash i.seed) = .ok (forge n file) →
      i.createdOn ≤ t₂ → 0 ≤ t₂ →
      unsealTrIdentity w password d' i.hash i.seed t₁ t₂ =
        .ok ⟨i.hash, jsonText i.seed, jsonText i.name, jsonText i.root, none, none, 0, t₂⟩ := by
  obtain ⟨forge, hf⟩ := C53_cut_and_changed_neg
  refine ⟨fun n => forge n (44 ^^^ 125), fun i hi => ?_⟩
  cases hb : jTrIdentityC.text i.toJSON with
  | none =>
    refine ⟨0, fun w password iv d d' file t₁ t₂ hd hiv hok => ?_⟩
    simp [sealTrIdentity, hb] at hok
  | some b =>
    obtain ⟨ms, x, rest, hw, rfl, hx⟩ := trIdentity_cut hb
    refine ⟨x.length, fun w password iv d d' file t₁ t₂ hd hiv hok hfile hr ht h0 => ?_⟩
    obtain ⟨b, hb', hfile'⟩ := sealed_file w hd password iv hok
    rw [hb] at hb'
    rw [hfile, ← Option.some.inj hb'] at hfile'
    rw [Outcome.ok.inj hfile'] at hr
    obtain ⟨js, h1, h2⟩ := C148_identity_reads_neg i hi hw (fun m => decide (m ≠ ascii "wallets" ∧
      m ≠ ascii "buckets" ∧ m ≠ ascii "created_on")) (t₁ := t₁) (t₂ := t₂) ht h0
    have hx' := hf password iv x rest 44 (44 ^^^ 125) hiv
    rw [show (44 : UInt8) ^^^ (44 ^^^ 125) = 125 by decide] at hx'
    have hk : ∀ m : Bytes, m ∈ [ascii "hash", ascii "seed", ascii "name", ascii "root"] →
        decide (m ≠ ascii "wallets" ∧ m ≠ ascii "buckets" ∧ m ≠ ascii "created_on") = true := by
      decide +kernel
    unfold unsealTrIdentity encRetrieve
    rw [hr]
    simp only [Outcome.bind]
    rw [hx']
    simp only [← hx, h1]
    rw [h2]
    simp [hk]

end

section examples

attribute [local instance] toySha toyCipher

theorem toyIdentity_sealed : (sealTrIdentity exPlace [112] [] (toyIdentity (ascii "me")) (List.replicate 16 7)).1 =
    .ok () := by
  refine (C149_save_succeeds_iff _ _ _ _ _).mpr ⟨by decide, fun b _ => ?_⟩
  refine ((C55_save_succeeds_iff exPlace Disk.sound_nil _ _).1).mpr ⟨?_, fun k _ c => ?_⟩
  · have h : exPlace.resolve (identityFile (toyIdentity (ascii "me")).hash (toyIdentity (ascii "me")).seed) ≠ [] := by
      decide +kernel
    simp [Disk.at?, h]
  · unfold Disk.at?
    split <;> simp

/-- C149: the toy identity is saved on the empty disk and read. -/
example : ∃ j, unsealTrIdentity exPlace [112]
      (sealTrIdentity exPlace [112] [] (toyIdentity (ascii "me")) (List.replicate 16 7)).2
      (toyIdentity (ascii "me")).hash (toyIdentity (ascii "me")).seed 9 9 = .ok j ∧
      SameIdentity (toyIdentity (ascii "me")) j := by
  have hops : ∀ d, lastSaid exPlace.resolve (exPlace.resolve
      (identityFile (toyIdentity (ascii "me")).hash (toyIdentity (ascii "me")).seed))
      (([] : List FileOp).zip (runOps (diskStep exPlace) d []).1) = .nothing := fun _ => rfl
  have h := C149_sealed_identity_comes_back_partial exPlace Disk.sound_nil [112] (List.replicate 16 7) (by simp)
    (toyIdentity_built (name := ascii "me") (by decide)) (utf8_ascii_of (by decide)) (utf8_ascii_of (by decide))
    (utf8_ascii_of (by decide)) toyIdentity_sealed [] (hops _) (t₁ := 9) (t₂ := 9) (by decide)
  simpa only [runOps] using h

/-- C149: its wallet is cut off. -/
example : ∃ forge : Bytes → Bytes, ∃ file : Bytes,
    diskRetrieve exPlace (sealTrIdentity exPlace [112] [] (toyIdentity (ascii "me")) (List.replicate 16 7)).2
      (identityFile (toyIdentity (ascii "me")).hash (toyIdentity (ascii "me")).seed) = .ok file ∧
    ∀ d', diskRetrieve exPlace d' (identityFile (toyIdentity (ascii "me")).hash (toyIdentity (ascii "me")).seed) = .ok (forge file) →
      ∃ j, unsealTrIdentity exPlace [112] d' (toyIdentity (ascii "me")).hash (toyIdentity (ascii "me")).seed 9 9 =
        .ok j ∧ j.wallets = none ∧ (toyIdentity (ascii "me")).wallets ≠ none := by
  obtain ⟨forge, h⟩ := C149_wallets_cut_off_neg
  obtain ⟨n, h⟩ := h _ (toyIdentity_built (name := ascii "me") (by decide))
  obtain ⟨b, -, hb⟩ := sealed_file exPlace Disk.sound_nil [112] (List.replicate 16 7) toyIdentity_sealed
  exact ⟨forge n, _, hb, fun d' hd' => ⟨_, h exPlace [112] (List.replicate 16 7) [] d' _ 9 9 Disk.sound_nil
    (by simp) toyIdentity_sealed hb hd' (by decide) (by decide), rfl, by simp [toyIdentity]⟩⟩

end examples

end Verif
