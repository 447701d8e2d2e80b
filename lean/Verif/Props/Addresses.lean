import Verif.Model.Piastres.Addresses
import Verif.Props.Alike
import Verif.Props.Objects
import Verif.Props.Records
import Verif.Props.Wire

/-!
# Addresses on the disk: C150
-/

namespace Verif

section
variable [Sha512]

omit [Sha512] in
/-- What a history of saves says about a hash under which nothing was saved. -/
theorem lastRecord_nothing {α : Type} {hash : α → Hash} {h : Hash} :
    ∀ {l : List (RecordOp α × Outcome Unit)}, (∀ e ∈ l, ∃ x, e.1 = .save x) →
      (¬ ∃ x, (RecordOp.save x, Outcome.ok ()) ∈ l ∧ hash x = h) → lastRecord hash h l = .nothing
  | [], _, _ => rfl
  | (op, r) :: rest, hs, hn => by
    obtain ⟨x, hx⟩ := hs _ List.mem_cons_self
    simp only at hx
    subst hx
    rw [lastRecord_miss]
    · exact lastRecord_nothing (fun e he => hs e (List.mem_cons_of_mem _ he))
        fun ⟨y, hy, e⟩ => hn ⟨y, List.mem_cons_of_mem _ hy, e⟩
    · rintro ⟨h1, rfl⟩
      exact hn ⟨x, List.mem_cons_self, h1⟩

omit [Sha512] in
/-- What a history of saves says about a hash under which something was saved. -/
theorem lastRecord_saves {α : Type} {hash : α → Hash} {h : Hash} :
    ∀ {l : List (RecordOp α × Outcome Unit)}, (∀ e ∈ l, ∃ x, e.1 = .save x) →
      (∃ x, (RecordOp.save x, Outcome.ok ()) ∈ l ∧ hash x = h) →
      ∃ y, lastRecord hash h l = .saved y ∧ (RecordOp.save y, Outcome.ok ()) ∈ l ∧ hash y = h
  | [], _, ⟨_, hx, _⟩ => by simp at hx
  | (op, r) :: rest, hs, ⟨x, hx, hh⟩ => by
    by_cases hl : ∃ x, (RecordOp.save x, Outcome.ok ()) ∈ rest ∧ hash x = h
    · obtain ⟨y, h1, h2, h3⟩ := lastRecord_saves (fun e he => hs e (List.mem_cons_of_mem _ he)) hl
      refine ⟨y, ?_, List.mem_cons_of_mem _ h2, h3⟩
      rw [lastRecord_later (by rw [h1]; simp), h1]
    · have he : (op, r) = (RecordOp.save x, Outcome.ok ()) := by
        rcases List.mem_cons.mp hx with e | e
        · exact e.symm
        · exact absurd ⟨x, e, hh⟩ hl
      cases he
      refine ⟨x, ?_, List.mem_cons_self, hh⟩
      have hn : lastRecord hash h rest = .nothing :=
        lastRecord_nothing (fun e he => hs e (List.mem_cons_of_mem _ he)) hl
      exact lastRecord_hit (op := .save x) hn ⟨hh, rfl⟩

/-- C150: after any history of saves, successful or not, in any file system, the address that was last saved
under a hash is retrieved whole. -/
theorem C150_last_saved_comes_back (w : Place) {d : Disk} (hd : d.Sound) (ops : List (RecordOp Address))
    (h : Hash) (a : Address) (ha : a.Built)
    (hl : lastRecord Address.hash h (ops.zip (runRecords addressRecords w d ops).1) = .saved a) :
    addressRecords.retrieve w (runRecords addressRecords w d ops).2 h = .ok a ∧ a.hash = h := by
  obtain ⟨h1, b, h2, h3⟩ := Records.retrieve_saved (k := addressRecords) hd hl
  refine ⟨h3.trans ?_, h1⟩
  exact (unmarshal_text (jAddressC_good _) (jAddressC_norm a) h2).trans (C29_address_round_trip a ha)

/-- C150: an address that was saved by any call of a history of saves of built addresses is found at the end,
or one with the same members, or with a sole member that is its hash or the other way round, unless the hashed
texts of the two collide. Missing: that it is the same address (`C150_another_address_instead_neg`). -/
theorem C150_saved_address_found_partial (w : Place) {d : Disk} (hd : d.Sound) (saves : List Address)
    (hb : ∀ a ∈ saves, a.Built) (a : Address)
    (ha : (RecordOp.save a, Outcome.ok ()) ∈ (saves.map RecordOp.save).zip
      (runRecords addressRecords w d (saves.map RecordOp.save)).1) :
    ∃ b ∈ saves, addressRecords.retrieve w (runRecords addressRecords w d (saves.map RecordOp.save)).2 a.hash =
      .ok b ∧ (b.Alike a ∨ Clash b.texts a.texts) := by
  have hmem : ∀ {x : Address} {r}, (RecordOp.save x, r) ∈ (saves.map RecordOp.save).zip
      (runRecords addressRecords w d (saves.map RecordOp.save)).1 → x ∈ saves := by
    intro x r hx
    obtain ⟨y, hy, e⟩ := List.mem_map.mp (List.of_mem_zip hx).1
    cases e
    exact hy
  obtain ⟨y, h1, h2, h3⟩ := lastRecord_saves (hash := Address.hash) (h := a.hash) (fun e he => by
    obtain ⟨y, -, e'⟩ := List.mem_map.mp (List.of_mem_zip (a := e.1) (b := e.2) he).1
    exact ⟨y, e'.symm⟩) ⟨a, ha, rfl⟩
  exact ⟨y, hmem h2, (C150_last_saved_comes_back w hd _ _ y (hb y (hmem h2)) h1).1,
    Address.alike_of_hash (hb y (hmem h2)) (hb a (hmem ha)) h3⟩

/-- C150 (negation): for every address there is another one that replaces it: it has the same members in other
roles, and when both were saved with success it is what is retrieved under the hash of the first one. -/
theorem C150_another_address_instead_neg (a : Address) (ha : a.Built) :
    ∃ b : Address, b.Built ∧ b ≠ a ∧ b.members = a.members ∧ b.createdOn = a.createdOn ∧
      ∀ (w : Place) (d : Disk), d.Sound → (addressRecords.save w d a).1 = .ok () →
        (addressRecords.save w (addressRecords.save w d a).2 b).1 = .ok () →
        addressRecords.retrieve w (addressRecords.save w (addressRecords.save w d a).2 b).2 a.hash = .ok b := by
  suffices h : ∃ b : Address, b.Built ∧ b ≠ a ∧ b.members = a.members ∧ b.createdOn = a.createdOn by
    obtain ⟨b, hb, h1, h2, h3⟩ := h
    refine ⟨b, hb, h1, h2, h3, fun w d hd s1 s2 => ?_⟩
    have hh : b.hash = a.hash := by rw [Address.hash_eq ha, Address.hash_eq hb, h2]
    have hl : lastRecord Address.hash a.hash (([.save a, .save b] : List (RecordOp Address)).zip
        (runRecords addressRecords w d [.save a, .save b]).1) = .saved b := by
      have h2 : lastRecord Address.hash a.hash
          [(RecordOp.save b, (addressRecords.save w (addressRecords.save w d a).2 b).1)] = .saved b :=
        lastRecord_hit (op := .save b) (rest := []) rfl ⟨hh, s2⟩
      refine Eq.trans ?_ h2
      exact lastRecord_later (op := .save a) (rest :=
        [(RecordOp.save b, (addressRecords.save w (addressRecords.save w d a).2 b).1)]) (by rw [h2]; simp)
    exact (C150_last_saved_comes_back w hd [.save a, .save b] a.hash b hb hl).1
  obtain ⟨s, r, j, t, h⟩ := ha
  obtain ⟨h1, rfl⟩ := addressNow_eq_ok.mp h
  cases s with
  | some s =>
    exact ⟨_, ⟨none, s :: r, j, t, addressNow_eq_ok.mpr ⟨by simp, rfl⟩⟩, by simp, rfl, rfl⟩
  | none =>
    cases r with
    | cons x r =>
      exact ⟨_, ⟨some x, r, j, t, addressNow_eq_ok.mpr ⟨by simp, rfl⟩⟩, by simp, rfl, rfl⟩
    | nil =>
      cases j with
      | none => simp at h1
      | some j =>
        exact ⟨_, ⟨some j, [], none, t, addressNow_eq_ok.mpr ⟨by simp, rfl⟩⟩, by simp, rfl, rfl⟩

/-- C150: saving succeeds exactly when the creation time is in the years 0 to 9999, the path is not a directory
and no element above it is a regular file. A save that fails changes nothing. -/
theorem C150_save_succeeds_iff (w : Place) {d : Disk} (hd : d.Sound) (a : Address) :
    ((addressRecords.save w d a).1 = .ok () ↔ Dated a.createdOn ∧
      d.at? (w.resolve a.hash.str) ≠ some .dir ∧
      ∀ j < (w.resolve a.hash.str).length, ∀ c, d.at? ((w.resolve a.hash.str).take j) ≠ some (.file c)) ∧
    ((addressRecords.save w d a).1 ≠ .ok () → (addressRecords.save w d a).2 = d) := by
  rw [← jAddressC_writes a, Codec.writes_iff]
  exact C139_save_succeeds_iff addressRecords w hd a

/-- C150: retrieving never panics, whatever is on the disk. -/
theorem C150_never_panics (w : Place) (d : Disk) (h : Hash) (c : Crash) :
    addressRecords.retrieve w d h ≠ .crash c := by
  have hd : (diskRetrieve w d h.str).Calm := by
    unfold diskRetrieve
    split <;> first | exact .ok _ | exact .err _
  refine Outcome.Calm.bind hd (fun b _ => ?_) c
  intro c hc
  obtain ⟨j, -, h⟩ := unmarshal_crash.mp hc
  exact addressFromJSON_calm j c h

/-- C150 (negation): the hash is not checked: whatever address is written in the file of a hash is retrieved
under that hash. -/
theorem C150_hash_not_checked_neg (w : Place) (d : Disk) (h : Hash) (a : Address) (ha : a.Built) (b : Bytes)
    (hb : jAddressC.text a.toJSON = some b) (hf : diskRetrieve w d h.str = .ok b) :
    addressRecords.retrieve w d h = .ok a := by
  unfold Records.retrieve
  rw [hf, Outcome.bind_ok]
  exact (unmarshal_text (jAddressC_good _) (jAddressC_norm a) hb).trans (C29_address_round_trip a ha)

end

section examples

attribute [local instance] toySha

/-- An address with a sender or without, one recipient, and a subject or without. -/
def toyAddress (s j : Option Hash) (n : UInt8) : Address :=
  ⟨fromBytes (hashesBytes (s.toList ++ [toyHash n] ++ j.toList)), s, [toyHash n], j, 0⟩

theorem toyAddress_built (s j : Option Hash) (n : UInt8) : (toyAddress s j n).Built :=
  ⟨s, [toyHash n], j, 0, addressNow_eq_ok.mpr ⟨by simp, rfl⟩⟩

/-- C150: an address is saved in an empty file system and comes back. -/
example (s j : Option Hash) (n : UInt8) :
    (addressRecords.save toyPlace [] (toyAddress s j n)).1 = .ok () ∧
    addressRecords.retrieve toyPlace (addressRecords.save toyPlace [] (toyAddress s j n)).2
      (toyAddress s j n).hash = .ok (toyAddress s j n) := by
  have hs := toy_save addressRecords (toyAddress s j n)
    (Codec.writes_iff.mp ((jAddressC_writes (toyAddress s j n)).mpr (by decide : Dated 0)))
  exact ⟨hs, (C150_last_saved_comes_back toyPlace (d := []) empty_sound [.save (toyAddress s j n)] _ _
    (toyAddress_built s j n) (lastRecord_single hs)).1⟩

/-- C150: two addresses with the same members are saved with success in an empty file system, and the second one
is retrieved under the hash of the first. -/
example : (addressRecords.save toyPlace (addressRecords.save toyPlace []
      (toyAddress none (some (toyHash 2)) 1)).2 (toyAddress (some (toyHash 1)) none 2)).1 = .ok () ∧
    lastRecord Address.hash (toyAddress none (some (toyHash 2)) 1).hash
      (([.save (toyAddress none (some (toyHash 2)) 1), .save (toyAddress (some (toyHash 1)) none 2)] :
        List (RecordOp Address)).zip (runRecords addressRecords toyPlace []
        [.save (toyAddress none (some (toyHash 2)) 1), .save (toyAddress (some (toyHash 1)) none 2)]).1) =
      .saved (toyAddress (some (toyHash 1)) none 2) := by
  decide +kernel

end examples

end Verif
