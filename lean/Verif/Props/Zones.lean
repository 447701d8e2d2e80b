import Verif.Model.Json.Zoned
import Verif.Model.Json.Objects
import Verif.Props.Text

/-!
# C152: times of other zones

The module takes its times from the clock in UTC. A time in the text of another node may have any zone,
and it keeps it: nothing between the text and the file turns it into UTC. The theorems of
`Verif.Props.Text` are about times in UTC; these here are about all of them.
-/

namespace Verif

section
variable [C : Curve] [FloatText]

/-- What is to be expected of an object in a file: it is read as it was written, with the zone of its
time. -/
def KeepsZone {σ : Type} (c : Codec (σ × Int)) (x : σ) (o : Int) : Prop :=
  ∀ b, c.text (x, o) = some b → c.read b = some (x, o)

/-- The file is written without an error and cannot be read any more. -/
def LosesFile {σ : Type} (c : Codec (σ × Int)) (x : σ) (o : Int) : Prop :=
  ∃ b, c.text (x, o) = some b ∧ c.read b = none

omit C [FloatText] in
/-- C152: the instant that `Verif.Base.Json.Time` reads is the one of the time with its zone, for every
text; so everything that is proved about reading without zones holds with them. -/
theorem C152_same_instant : (∀ b, parseTime b = (parseZTime b).map ZTime.ns) ∧
    (∀ t, fmtZTime ⟨t, 0⟩ = fmtTime t) := by
  refine ⟨parseTime_eq, fun t => ?_⟩
  unfold fmtZTime
  simp only [ZTime.clock, Int.zero_mul, Int.add_zero]
  cases h : fmtTime t with
  | none => rfl
  | some b =>
    obtain ⟨w, rfl, -⟩ := parseTime_zone h
    simp [fmtZone]

omit C [FloatText] in
/-- C152: a time that was read from any text can be written, whatever its zone is, and is at most 6039
minutes away from UTC. It is read again, as the same time in the same zone, exactly when the zone is less
than 100 hours away; else the text that was written is refused. -/
theorem C152_read_times_partial {b : Bytes} {z : ZTime} (h : parseZTime b = some z) :
    z.zone.natAbs ≤ 6039 ∧ ∃ b', fmtZTime z = some b' ∧
      parseZTime b' = if z.zone.natAbs < 6000 then some z else none := by
  obtain ⟨h1, h2⟩ := fmtZTime_of_parse h
  obtain ⟨j, hj⟩ := Option.isSome_iff_exists.mp ((ztimeC_writes z).mpr h1)
  simp only [ztimeC, Option.map_eq_some_iff] at hj
  obtain ⟨b', h3, -⟩ := hj
  exact ⟨h2, b', h3, parseZTime_fmtZTime h3⟩

omit C [FloatText] in
theorem Stamped.Lawful.keeps {σ : Type} {k : Stamped σ} (h : k.Lawful) {x : σ}
    (hb : ∀ f ∈ k.body, f.codec.Good (f.get x)) (hn : k.utc.norm x = x) (o : Int) :
    (o.natAbs < 6000 → KeepsZone k.zoned x o) ∧
      (6000 ≤ o.natAbs → k.zoned.Writes (x, o) → LosesFile k.zoned x o) := by
  constructor
  · intro ho b hb'
    rw [h.read_zoned hb hb', if_pos ho, hn]
  · intro ho hw
    obtain ⟨b, hb'⟩ := Codec.writes_iff.mp hw
    refine ⟨b, hb', ?_⟩
    rw [h.read_zoned hb hb', if_neg (by omega)]

macro "body_good " t:term : tactic => `(tactic| (
  simp only [List.forall_mem_cons, fld, List.not_mem_nil, false_imp_iff, implies_true, and_true]
  exact $t))

/-- C152: for every kind of object of the store, the file of an object whose time is in a zone of less
than 100 hours is read as that object with that zone. -/
theorem C152_files_in_zones_partial {o : Int} (ho : o.natAbs < 6000) :
    (∀ x : TrLock, KeepsZone trLockStamp.zoned x.toJSON o) ∧
    (∀ x : TrBill, KeepsZone trBillStamp.zoned x.toJSON o) ∧
    (∀ x : TrExpense, KeepsZone trExpenseStamp.zoned x.toJSON o) ∧
    (∀ x : TrGenesis, x.blockIncrease.IsFloat → KeepsZone trGenesisStamp.zoned x.goJSON o) ∧
    (∀ x : TrTransaction, KeepsZone trTransactionStamp.zoned x.toJSON o) ∧
    (∀ x : TrBlock, KeepsZone trBlockStamp.zoned x.toJSON o) ∧
    (∀ x : TrLink, KeepsZone trLinkStamp.zoned x.toJSON o) ∧
    (∀ x : TrChain, KeepsZone trChainStamp.zoned x.toJSON o) ∧
    (∀ x : TrState, KeepsZone trStateStamp.zoned x.toJSON o) ∧
    (∀ x : TrMined, Utf8 x.mining → KeepsZone trMinedBlockStamp.zoned x.goJSON o) ∧
    (∀ x : TrMined, Utf8 x.mining → KeepsZone trMinedLinkStamp.zoned x.goJSON o) := by
  have hu : ∀ x : TrMined, Utf8 x.mining → x.toJSON = x.goJSON := fun x h => by
    simp [TrMined.toJSON, TrMined.goJSON, jsonText_of_utf8 h]
  refine ⟨fun x => (trLockStamp_lawful.keeps ?_ (jTrLockC_norm x) o).1 ho,
    fun x => (trBillStamp_lawful.keeps ?_ (jTrBillC_norm x) o).1 ho,
    fun x => (trExpenseStamp_lawful.keeps ?_ (jTrExpenseC_norm x) o).1 ho,
    fun x h => (trGenesisStamp_lawful.keeps ?_ (jTrGenesisC_norm x) o).1 ho,
    fun x => (trTransactionStamp_lawful.keeps ?_ (jTrTransactionC_norm x) o).1 ho,
    fun x => (trBlockStamp_lawful.keeps ?_ (jTrBlockC_norm x) o).1 ho,
    fun x => (trLinkStamp_lawful.keeps ?_ (jTrLinkC_norm x) o).1 ho,
    fun x => (trChainStamp_lawful.keeps ?_ (jTrChainC_norm x) o).1 ho,
    fun x => (trStateStamp_lawful.keeps ?_ (jTrStateC_norm x) o).1 ho,
    fun x h => (trMinedBlockStamp_lawful.keeps ?_ ((jTrMinedBlockC_norm x).trans (hu x h)) o).1 ho,
    fun x h => (trMinedLinkStamp_lawful.keeps ?_ ((jTrMinedLinkC_norm x).trans (hu x h)) o).1 ho⟩
  · unfold trLockStamp; body_good ⟨strC_good _, listC_good fun a _ => strC_good a⟩
  · unfold trBillStamp; body_good ⟨strC_good _, strC_good _, uintC_good _⟩
  · unfold trExpenseStamp
    body_good ⟨strC_good _, listC_good fun a _ => strC_good a, strC_good _,
      listC_good fun a _ => strC_good a, strC_good _⟩
  · unfold trGenesisStamp
    body_good ⟨strC_good _, strC_good _, uintC_good _, fltC_good h, uintC_good _⟩
  · unfold trTransactionStamp
    body_good ⟨strC_good _, strC_good _, listC_good fun a _ => strC_good a, strC_good _⟩
  · unfold trBlockStamp
    body_good ⟨strC_good _, ptrC_good (structC_notNull _ _) fun a _ => compactC_good a, uintC_good _,
      uintC_good _⟩
  · unfold trLinkStamp; body_good ⟨strC_good _, strC_good _, strC_good _, uintC_good _⟩
  · unfold trChainStamp
    body_good ⟨strC_good _, strC_good _, strC_good _, strC_good _, uintC_good _⟩
  · unfold trStateStamp
    body_good ⟨strC_good _, strC_good _, strC_good _, uintC_good _,
      ptrC_good (structC_notNull _ _) fun a _ => compactC_good a, uintC_good _⟩
  · unfold trMinedBlockStamp; body_good ⟨strC_good _, strC_good _, strC_good _⟩
  · unfold trMinedLinkStamp; body_good ⟨strC_good _, strC_good _, strC_good _⟩

/-- C152: when the zone is 100 hours or more away and the year in that zone is in 0 to 9999, the file of
an object of any kind is written without an error, and cannot be read any more. -/
theorem C152_files_in_odd_zones_neg {o : Int} (ho : 6000 ≤ o.natAbs) :
    (∀ x : TrLock, Dated (x.createdOn + o * minuteNs) → LosesFile trLockStamp.zoned x.toJSON o) ∧
    (∀ x : TrBill, Dated (x.createdOn + o * minuteNs) → LosesFile trBillStamp.zoned x.toJSON o) ∧
    (∀ x : TrExpense, Dated (x.createdOn + o * minuteNs) → LosesFile trExpenseStamp.zoned x.toJSON o) ∧
    (∀ x : TrGenesis, x.blockIncrease.IsFloat → x.blockIncrease.marshals = true →
      Dated (x.createdOn + o * minuteNs) → LosesFile trGenesisStamp.zoned x.goJSON o) ∧
    (∀ x : TrTransaction, Dated (x.createdOn + o * minuteNs) →
      LosesFile trTransactionStamp.zoned x.toJSON o) ∧
    (∀ x : TrBlock, Dated (x.createdOn + o * minuteNs) → LosesFile trBlockStamp.zoned x.toJSON o) ∧
    (∀ x : TrLink, Dated (x.createdOn + o * minuteNs) → LosesFile trLinkStamp.zoned x.toJSON o) ∧
    (∀ x : TrChain, Dated (x.createdOn + o * minuteNs) → LosesFile trChainStamp.zoned x.toJSON o) ∧
    (∀ x : TrState, Dated (x.createdOn + o * minuteNs) → LosesFile trStateStamp.zoned x.toJSON o) ∧
    (∀ x : TrMined, Dated (x.createdOn + o * minuteNs) → LosesFile trMinedBlockStamp.zoned x.goJSON o) ∧
    (∀ x : TrMined, Dated (x.createdOn + o * minuteNs) → LosesFile trMinedLinkStamp.zoned x.goJSON o) := by
  have key : ∀ {σ : Type} {k : Stamped σ} {x : σ}, k.Lawful →
      (∀ f ∈ k.body, f.codec.Good (f.get x)) → (∀ f ∈ k.body, f.codec.Writes (f.get x)) →
      Dated (k.get x + o * minuteNs) → LosesFile k.zoned x o := by
    intro σ k x h hb hw hd
    obtain ⟨b, hb'⟩ := Codec.writes_iff.mp ((k.zoned_writes x o).mpr ⟨hw, hd⟩)
    refine ⟨b, hb', ?_⟩
    rw [h.read_zoned hb hb', if_neg (by omega)]
  refine ⟨fun x hd => key trLockStamp_lawful ?_ ?_ hd, fun x hd => key trBillStamp_lawful ?_ ?_ hd,
    fun x hd => key trExpenseStamp_lawful ?_ ?_ hd, fun x h hm hd => key trGenesisStamp_lawful ?_ ?_ hd,
    fun x hd => key trTransactionStamp_lawful ?_ ?_ hd, fun x hd => key trBlockStamp_lawful ?_ ?_ hd,
    fun x hd => key trLinkStamp_lawful ?_ ?_ hd, fun x hd => key trChainStamp_lawful ?_ ?_ hd,
    fun x hd => key trStateStamp_lawful ?_ ?_ hd, fun x hd => key trMinedBlockStamp_lawful ?_ ?_ hd,
    fun x hd => key trMinedLinkStamp_lawful ?_ ?_ hd⟩
  · unfold trLockStamp; body_good ⟨strC_good _, listC_good fun a _ => strC_good a⟩
  · unfold trLockStamp; body_good ⟨strC_writes _, (listC_writes _ _).mpr fun a _ => strC_writes a⟩
  · unfold trBillStamp; body_good ⟨strC_good _, strC_good _, uintC_good _⟩
  · unfold trBillStamp; body_good ⟨strC_writes _, strC_writes _, uintC_writes _⟩
  · unfold trExpenseStamp
    body_good ⟨strC_good _, listC_good fun a _ => strC_good a, strC_good _,
      listC_good fun a _ => strC_good a, strC_good _⟩
  · unfold trExpenseStamp
    body_good ⟨strC_writes _, (listC_writes _ _).mpr fun a _ => strC_writes a, strC_writes _,
      (listC_writes _ _).mpr fun a _ => strC_writes a, strC_writes _⟩
  · unfold trGenesisStamp
    body_good ⟨strC_good _, strC_good _, uintC_good _, fltC_good h, uintC_good _⟩
  · unfold trGenesisStamp
    body_good ⟨strC_writes _, strC_writes _, uintC_writes _, (fltC_writes _).mpr hm, uintC_writes _⟩
  · unfold trTransactionStamp
    body_good ⟨strC_good _, strC_good _, listC_good fun a _ => strC_good a, strC_good _⟩
  · unfold trTransactionStamp
    body_good ⟨strC_writes _, strC_writes _, (listC_writes _ _).mpr fun a _ => strC_writes a,
      strC_writes _⟩
  · unfold trBlockStamp
    body_good ⟨strC_good _, ptrC_good (structC_notNull _ _) fun a _ => compactC_good a, uintC_good _,
      uintC_good _⟩
  · unfold trBlockStamp
    body_good ⟨strC_writes _, (ptrC_writes _ _).mpr fun a _ => compactC_writes a, uintC_writes _,
      uintC_writes _⟩
  · unfold trLinkStamp; body_good ⟨strC_good _, strC_good _, strC_good _, uintC_good _⟩
  · unfold trLinkStamp; body_good ⟨strC_writes _, strC_writes _, strC_writes _, uintC_writes _⟩
  · unfold trChainStamp
    body_good ⟨strC_good _, strC_good _, strC_good _, strC_good _, uintC_good _⟩
  · unfold trChainStamp
    body_good ⟨strC_writes _, strC_writes _, strC_writes _, strC_writes _, uintC_writes _⟩
  · unfold trStateStamp
    body_good ⟨strC_good _, strC_good _, strC_good _, uintC_good _,
      ptrC_good (structC_notNull _ _) fun a _ => compactC_good a, uintC_good _⟩
  · unfold trStateStamp
    body_good ⟨strC_writes _, strC_writes _, strC_writes _, uintC_writes _,
      (ptrC_writes _ _).mpr fun a _ => compactC_writes a, uintC_writes _⟩
  · unfold trMinedBlockStamp; body_good ⟨strC_good _, strC_good _, strC_good _⟩
  · unfold trMinedBlockStamp; body_good ⟨strC_writes _, strC_writes _, strC_writes _⟩
  · unfold trMinedLinkStamp; body_good ⟨strC_good _, strC_good _, strC_good _⟩
  · unfold trMinedLinkStamp; body_good ⟨strC_writes _, strC_writes _, strC_writes _⟩

variable [Sha512]

omit C [FloatText] in
/-- C152, from the text of another node to the file: a lock that was accepted from any text has a zone of
at most 6039 minutes, its file is written without an error, and the lock is read back from the file, with
the time and the zone, exactly when the zone is less than 100 hours away. -/
theorem C152_received_locks_partial {b : Bytes} {l : Lock} (h : lockFromText b = .ok l) :
    ∃ j o tr f, lockStamp.zoned.read b = some (j, o) ∧ lockFromJSON (some j) = .ok l ∧ o.natAbs ≤ 6039 ∧
      l.toTransfer = .ok tr ∧ trLockStamp.zoned.text (tr.toJSON, o) = some f ∧
      trLockStamp.zoned.read f = if o.natAbs < 6000 then some (tr.toJSON, o) else none := by
  unfold lockFromText unmarshal at h
  split at h
  · rename_i j hj
    change lockStamp.utc.read b = _ at hj
    rw [lockStamp.read_fst] at hj
    simp only [Option.map_eq_some_iff] at hj
    obtain ⟨⟨j, o⟩, hz, rfl⟩ := hj
    obtain ⟨hd, ho⟩ := lockStamp_lawful.read_bounds hz
    have hl : l.createdOn = j.createdOn := by
      unfold lockFromJSON at h
      simp only [Outcome.deref, Outcome.bind_ok] at h
      obtain ⟨keys, -, h⟩ := Outcome.bind_eq_ok.mp h
      simp only [lockNow] at h
      split at h
      · cases h
      · split at h
        · cases h
        · cases h
          rfl
    have htr : l.toTransfer = .ok ⟨l.hash, l.pubKeys, l.createdOn⟩ := rfl
    have hw : trLockStamp.zoned.Writes ((⟨l.hash, l.pubKeys, l.createdOn⟩ : TrLock).toJSON, o) := by
      rw [Stamped.zoned_writes]
      refine ⟨?_, ?_⟩
      · unfold trLockStamp; body_good ⟨strC_writes _, (listC_writes _ _).mpr fun a _ => strC_writes a⟩
      · change Dated (l.createdOn + _)
        rw [hl]
        exact hd
    obtain ⟨f, hf⟩ := Codec.writes_iff.mp hw
    refine ⟨j, o, _, f, hz, h, ho, htr, hf, ?_⟩
    rw [trLockStamp_lawful.read_zoned ?_ hf]
    · exact congrArg (fun y => if o.natAbs < 6000 then some (y, o) else none) (jTrLockC_norm _)
    · unfold trLockStamp; body_good ⟨strC_good _, listC_good fun a _ => strC_good a⟩
  · cases h

/-- The text of a lock with one key, 64 bytes of `a`, and a time in the zone `+99:99`. -/
def oddText : Bytes :=
  ascii "{\"pubkeys\":[\"" ++ hexEncode (List.replicate 64 97) ++
    ascii "\"],\"created_on\":\"2020-01-01T00:00:00+99:99\"}"

omit C [FloatText] in
/-- C152 does not hold: there is a text of a lock that is accepted, from which a file is written without an
error that cannot be read any more. The zone `+99:99` is read as 6039 minutes and written as `+100:39`. -/
theorem C152_received_lock_lost_neg : ∃ (l : Lock) (o : Int) (tr : TrLock) (f : Bytes),
    lockFromText oddText = .ok l ∧ l.toTransfer = .ok tr ∧
    (∃ j, lockStamp.zoned.read oddText = some (j, o) ∧ lockFromJSON (some j) = .ok l) ∧
    trLockStamp.zoned.text (tr.toJSON, o) = some f ∧ trLockStamp.zoned.read f = none := by
  have hz : lockStamp.zoned.read oddText =
      some (⟨[hexEncode (List.replicate 64 97)], 63713071260 * 10 ^ 9⟩, 6039) := by decide +kernel
  have hk : mapO fromString [hexEncode (List.replicate 64 97)] =
      .ok [⟨List.replicate 64 97, by decide⟩] := mapO_fromString [⟨List.replicate 64 97, by decide⟩]
  have hl : ∃ l, lockFromText oddText = .ok l := by
    unfold lockFromText unmarshal
    have : jLockC.read oddText = some ⟨[hexEncode (List.replicate 64 97)], 63713071260 * 10 ^ 9⟩ := by
      change lockStamp.utc.read oddText = _
      rw [lockStamp.read_fst, hz]
      rfl
    rw [this]
    simp only [lockFromJSON, Outcome.deref, Outcome.bind_ok, hk, lockNow]
    exact ⟨_, rfl⟩
  obtain ⟨l, hl⟩ := hl
  obtain ⟨j, o, tr, f, h1, h2, -, h3, h4, h5⟩ := C152_received_locks_partial hl
  have ho : o = 6039 := by
    rw [hz] at h1
    cases h1
    rfl
  refine ⟨l, o, tr, f, hl, h3, ⟨j, h1, h2⟩, h4, ?_⟩
  rw [h5, ho]
  rfl

end

section examples

/-- Zones that are kept, and one that is not. -/
example : parseZTime (ascii "2020-01-01T00:00:00+02:30") = some ⟨63713424600 * 10 ^ 9, 150⟩ ∧
    fmtZTime ⟨63713424600 * 10 ^ 9, 150⟩ = some (ascii "2020-01-01T00:00:00+02:30") ∧
    fmtZTime ⟨63713071260 * 10 ^ 9, 6039⟩ = some (ascii "2020-01-01T00:00:00+100:39") ∧
    parseZTime (ascii "2020-01-01T00:00:00+100:39") = none := by decide +kernel

/-- In the last hours of year 9999 of a zone west of Greenwich, it is year 10000 in UTC: such a time can
be written only because it keeps its zone. -/
example : fmtZTime ⟨3652059 * dayNs, -60⟩ = some (ascii "9999-12-31T23:00:00-01:00") ∧
    fmtTime (3652059 * dayNs) = none := by decide +kernel

end examples

end Verif
