import Verif.Base.Json.Zone
import Verif.Model.Json.Transfers
import Verif.Model.Json.Memory

/-!
# Files of objects whose time has a zone

`created_on` is the last member of every structure that is stored. `Stamped` takes it off the others, so
that the structure can also be written and read with the zone of its time: the adapters and builders
pass a `time.Time` on as it is, so that an object received with a time of another zone is stored with
that zone.
-/

namespace Verif

variable {σ : Type}

/-- A structure with a last member `created_on`. -/
structure Stamped (σ : Type) where
  zero : σ
  body : List (Fld σ)
  get : σ → Time
  set : Time → σ → σ

/-- The structure with times in UTC. -/
def Stamped.utc (k : Stamped σ) : Codec σ :=
  structC k.zero (k.body ++ [fld "created_on" timeC k.get k.set])

/-- A member next to a zone. -/
def Fld.inZone (f : Fld σ) : Fld (σ × Int) :=
  ⟨f.name, f.codec, fun s => f.get s.1, fun a s => (f.set a s.1, s.2)⟩

/-- The member `created_on` with its zone. -/
def Stamped.stamp (k : Stamped σ) : Fld (σ × Int) :=
  fld "created_on" ztimeC (fun s => ⟨k.get s.1, s.2⟩) fun z s => (k.set z.ns s.1, z.zone)

/-- The structure with times of any zone: the second component is the offset of the zone. -/
def Stamped.zoned (k : Stamped σ) : Codec (σ × Int) :=
  structC (k.zero, 0) (k.body.map Fld.inZone ++ [k.stamp])

/-- `domain/memory/piastres/locks/json_lock.go:8-11`. -/
def lockStamp : Stamped JSONLock :=
  ⟨⟨[], 0⟩,
    [fld "pubkeys" (listC strC) JSONLock.pubKeys fun a s => { s with pubKeys := a }],
    JSONLock.createdOn, fun a s => { s with createdOn := a }⟩

/-- `domain/transfers/piastres/locks/json_lock.go:7-11`. -/
def trLockStamp : Stamped JTrLock :=
  ⟨⟨[], [], 0⟩,
    [fld "hash" strC JTrLock.hash fun a s => { s with hash := a },
     fld "pubkeys" (listC strC) JTrLock.pubKeys fun a s => { s with pubKeys := a }],
    JTrLock.createdOn, fun a s => { s with createdOn := a }⟩

/-- `bills/json_bill.go:5-10`. -/
def trBillStamp : Stamped JTrBill :=
  ⟨⟨[], [], 0, 0⟩,
    [fld "hash" strC JTrBill.hash fun a s => { s with hash := a },
     fld "lock" strC JTrBill.lock fun a s => { s with lock := a },
     fld "amount" uintC JTrBill.amount fun a s => { s with amount := a }],
    JTrBill.createdOn, fun a s => { s with createdOn := a }⟩

/-- `expenses/json_expense.go:7-14`. -/
def trExpenseStamp : Stamped JTrExpense :=
  ⟨⟨[], [], [], [], [], 0⟩,
    [fld "hash" strC JTrExpense.hash fun a s => { s with hash := a },
     fld "from" (listC strC) JTrExpense.source fun a s => { s with source := a },
     fld "to" strC JTrExpense.dest fun a s => { s with dest := a },
     fld "signatures" (listC strC) JTrExpense.signatures fun a s => { s with signatures := a },
     fld "remaining" strC JTrExpense.remaining fun a s => { s with remaining := a }],
    JTrExpense.createdOn, fun a s => { s with createdOn := a }⟩

/-- `genesis/json_genesis.go:7-14`. -/
def trGenesisStamp [FloatText] : Stamped JTrGenesis :=
  ⟨⟨[], [], 0, .fin 0, 0, 0⟩,
    [fld "hash" strC JTrGenesis.hash fun a s => { s with hash := a },
     fld "bill" strC JTrGenesis.bill fun a s => { s with bill := a },
     fld "block_difficulty_base" uintC JTrGenesis.blockBase fun a s => { s with blockBase := a },
     fld "block_difficulty_increase_per_trx" fltC JTrGenesis.blockIncrease fun a s => { s with blockIncrease := a },
     fld "link_difficulty" uintC JTrGenesis.link fun a s => { s with link := a }],
    JTrGenesis.createdOn, fun a s => { s with createdOn := a }⟩

/-- `transactions/json_transaction.go:7-13`. -/
def trTransactionStamp : Stamped JTrTransaction :=
  ⟨⟨[], [], [], [], 0⟩,
    [fld "hash" strC JTrTransaction.hash fun a s => { s with hash := a },
     fld "address" strC JTrTransaction.address fun a s => { s with address := a },
     fld "fees" (listC strC) JTrTransaction.fees fun a s => { s with fees := a },
     fld "bucket" strC JTrTransaction.bucket fun a s => { s with bucket := a }],
    JTrTransaction.createdOn, fun a s => { s with createdOn := a }⟩

/-- `blocks/json_block.go:9-15`. -/
def trBlockStamp : Stamped JTrBlock :=
  ⟨⟨[], none, 0, 0, 0⟩,
    [fld "hash" strC JTrBlock.hash fun a s => { s with hash := a },
     fld "transactions" (ptrC compactC) JTrBlock.trx fun a s => { s with trx := a },
     fld "amount" uintC JTrBlock.amount fun a s => { s with amount := a },
     fld "additional" uintC JTrBlock.additional fun a s => { s with additional := a }],
    JTrBlock.createdOn, fun a s => { s with createdOn := a }⟩

/-- `blocks/mined/json_block.go:5-10`. -/
def trMinedBlockStamp : Stamped JTrMined :=
  ⟨⟨[], [], [], 0⟩,
    [fld "hash" strC JTrMined.hash fun a s => { s with hash := a },
     fld "block" strC JTrMined.of fun a s => { s with of := a },
     fld "mining" strC JTrMined.mining fun a s => { s with mining := a }],
    JTrMined.createdOn, fun a s => { s with createdOn := a }⟩

/-- `links/mined/json_link.go:7-12`. -/
def trMinedLinkStamp : Stamped JTrMined :=
  ⟨⟨[], [], [], 0⟩,
    [fld "hash" strC JTrMined.hash fun a s => { s with hash := a },
     fld "link" strC JTrMined.of fun a s => { s with of := a },
     fld "mining" strC JTrMined.mining fun a s => { s with mining := a }],
    JTrMined.createdOn, fun a s => { s with createdOn := a }⟩

/-- `links/json_link.go:7-13`. -/
def trLinkStamp : Stamped JTrLink :=
  ⟨⟨[], [], [], 0, 0⟩,
    [fld "hash" strC JTrLink.hash fun a s => { s with hash := a },
     fld "previous_link" strC JTrLink.prevLink fun a s => { s with prevLink := a },
     fld "next" strC JTrLink.next fun a s => { s with next := a },
     fld "index" uintC JTrLink.index fun a s => { s with index := a }],
    JTrLink.createdOn, fun a s => { s with createdOn := a }⟩

/-- `chains/json_chain.go:7-14`. -/
def trChainStamp : Stamped JTrChain :=
  ⟨⟨[], [], [], [], 0, 0⟩,
    [fld "hash" strC JTrChain.hash fun a s => { s with hash := a },
     fld "genesis" strC JTrChain.genesis fun a s => { s with genesis := a },
     fld "root" strC JTrChain.root fun a s => { s with root := a },
     fld "head" strC JTrChain.head fun a s => { s with head := a },
     fld "total" uintC JTrChain.total fun a s => { s with total := a }],
    JTrChain.createdOn, fun a s => { s with createdOn := a }⟩

/-- `states/json_state.go:9-17`. -/
def trStateStamp : Stamped JTrState :=
  ⟨⟨[], [], [], 0, none, 0, 0⟩,
    [fld "hash" strC JTrState.hash fun a s => { s with hash := a },
     fld "chain" strC JTrState.chain fun a s => { s with chain := a },
     fld "previous" strC JTrState.prev fun a s => { s with prev := a },
     fld "height" uintC JTrState.height fun a s => { s with height := a },
     fld "transactions" (ptrC compactC) JTrState.trx fun a s => { s with trx := a },
     fld "amount" uintC JTrState.amount fun a s => { s with amount := a }],
    JTrState.createdOn, fun a s => { s with createdOn := a }⟩

/-- With times in UTC these are the codecs of the files. -/
theorem stamps_utc [FloatText] : lockStamp.utc = jLockC ∧ trLockStamp.utc = jTrLockC ∧
    trBillStamp.utc = jTrBillC ∧ trExpenseStamp.utc = jTrExpenseC ∧ trGenesisStamp.utc = jTrGenesisC ∧
    trTransactionStamp.utc = jTrTransactionC ∧ trBlockStamp.utc = jTrBlockC ∧
    trMinedBlockStamp.utc = jTrMinedBlockC ∧ trMinedLinkStamp.utc = jTrMinedLinkC ∧
    trLinkStamp.utc = jTrLinkC ∧ trChainStamp.utc = jTrChainC ∧ trStateStamp.utc = jTrStateC :=
  ⟨rfl, rfl, rfl, rfl, rfl, rfl, rfl, rfl, rfl, rfl, rfl, rfl⟩

/-! ## Writing and reading with zones -/

/-- What is asked of a structure: the names of the members are different words, all members make up the
value, and the time is a member like the others. -/
structure Stamped.Lawful (k : Stamped σ) : Prop where
  names : ((k.body.map Fld.name) ++ [ascii "created_on"]).Nodup
  tags : ∀ f ∈ k.body, ∀ c ∈ f.name, isTagByte c = true
  whole : ∀ s acc, (k.body ++ [fld "created_on" timeC k.get k.set]).foldl
    (fun a g => g.set (g.codec.norm (g.get s)) a) acc = k.utc.norm s
  get_zero : k.get k.zero = 0
  get_set : ∀ t s, k.get (k.set t s) = t
  get_body : ∀ f ∈ k.body, ∀ a s, k.get (f.set a s) = k.get s

theorem foldl_inZone (fs : List (Fld σ)) (s : σ) (o : Int) (acc : σ × Int) :
    (fs.map Fld.inZone).foldl (fun a g => g.set (g.codec.norm (g.get (s, o))) a) acc =
      (fs.foldl (fun a g => g.set (g.codec.norm (g.get s)) a) acc.1, acc.2) := by
  induction fs generalizing acc with
  | nil => rfl
  | cons f fs ih =>
    rw [List.map_cons, List.foldl_cons, List.foldl_cons, ih]
    rfl

theorem Stamped.names_zoned (k : Stamped σ) :
    (k.body.map Fld.inZone ++ [k.stamp]).map Fld.name = k.body.map Fld.name ++ [ascii "created_on"] := by
  simp only [List.map_append, List.map_map, List.map_cons, List.map_nil]
  rfl

theorem Stamped.Lawful.tags_zoned {k : Stamped σ} (h : k.Lawful) :
    ∀ f ∈ k.body.map Fld.inZone ++ [k.stamp], ∀ c ∈ f.name, isTagByte c = true := by
  intro f hf
  rcases List.mem_append.mp hf with hf | hf
  · obtain ⟨g, hg, rfl⟩ := List.mem_map.mp hf
    exact h.tags g hg
  · rw [List.mem_singleton.mp hf]
    change ∀ c ∈ ascii "created_on", _
    decide +kernel

/-- The value that comes back. -/
theorem Stamped.Lawful.norm_zoned {k : Stamped σ} (h : k.Lawful) (s : σ) (o : Int) (acc : σ × Int) :
    (k.body.map Fld.inZone ++ [k.stamp]).foldl (fun a g => g.set (g.codec.norm (g.get (s, o))) a) acc =
      (k.utc.norm s, o) := by
  rw [List.foldl_append, foldl_inZone]
  have := h.whole s acc.1
  rw [List.foldl_append] at this
  rw [← this]
  rfl

theorem Stamped.Lawful.zoned_good {k : Stamped σ} (h : k.Lawful) {s : σ} {o : Int}
    (hb : ∀ f ∈ k.body, f.codec.Good (f.get s)) (ho : o.natAbs < 6000) : k.zoned.Good (s, o) := by
  refine structC_good ?_ h.tags_zoned ?_ ?_
  · rw [k.names_zoned]
    exact h.names
  · intro f hf
    rcases List.mem_append.mp hf with hf | hf
    · obtain ⟨g, hg, rfl⟩ := List.mem_map.mp hf
      exact hb g hg
    · rw [List.mem_singleton.mp hf]
      exact ztimeC_good (z := ⟨k.get s, o⟩) ho
  · intro acc
    rw [h.norm_zoned]
    exact (h.norm_zoned s o (s, o)).symm

/-- What is read from what is written: the value and its zone, or nothing from 100 hours on. -/
theorem Stamped.Lawful.read_zoned {k : Stamped σ} (h : k.Lawful) {s : σ} {o : Int} {b : Bytes}
    (hb : ∀ f ∈ k.body, f.codec.Good (f.get s)) (ht : k.zoned.text (s, o) = some b) :
    k.zoned.read b = if o.natAbs < 6000 then some (k.utc.norm s, o) else none := by
  split
  · rename_i ho
    rw [(h.zoned_good hb ho).read ht]
    congr 1
    exact h.norm_zoned s o (s, o)
  · rename_i ho
    unfold Codec.text at ht
    simp only [Option.map_eq_some_iff] at ht
    obtain ⟨j, h1, rfl⟩ := ht
    simp only [Stamped.zoned, structC, Option.map_eq_some_iff] at h1
    obtain ⟨ms, h1, rfl⟩ := h1
    rw [List.mapM_append] at h1
    simp only [Option.bind_eq_bind, Option.bind_eq_some_iff, Option.pure_def, Option.some.injEq,
      List.mapM_cons, List.mapM_nil] at h1
    obtain ⟨ms, h1, m', ⟨m, h2, _, rfl, rfl⟩, rfl⟩ := h1
    have hfs : ∀ g ∈ k.body.map Fld.inZone, g.codec.Good (g.get (s, o)) := by
      intro g hg
      obtain ⟨f, hf, rfl⟩ := List.mem_map.mp hg
      exact hb f hf
    have hp := (readMembers_write (fs := k.body.map Fld.inZone ++ [k.stamp])
      (by rw [k.names_zoned]; exact h.names) h.tags_zoned (s := (s, o)) (k.body.map Fld.inZone) ms
      (fun g hg => List.mem_append_left _ hg) hfs h1).1
    unfold writeMember at h2
    simp only [Option.map_eq_some_iff, Stamped.stamp, fld, ztimeC] at h2
    obtain ⟨j, ⟨l, h3, rfl⟩, rfl⟩ := h2
    have hn := parseZTime_fmtZTime h3
    rw [if_neg ho] at hn
    have hprop : (Json.obj (ms ++ [(ascii "created_on", .str l)])).Proper := by
      have h4 : IsStrLit (ascii "created_on") :=
        (prefixable_tag (w := ascii "created_on") (by decide +kernel)).isStrLit
      have : ∀ ms : List (Bytes × Json), properMembers ms →
          properMembers (ms ++ [(ascii "created_on", Json.str l)]) := by
        intro ms
        induction ms with
        | nil => exact fun _ => ⟨h4, fmtZTime_lit h3, trivial⟩
        | cons a ms ih => exact fun hh => ⟨hh.1, hh.2.1, ih hh.2.2⟩
      exact this ms hp
    unfold Codec.read
    rw [parseJson_render hprop]
    simp only [Option.bind_eq_bind, Option.bind_some, Stamped.zoned, structC]
    rw [List.foldlM_append]
    have hlast : ∀ acc, readMember (k.body.map Fld.inZone ++ [k.stamp]) acc
        (ascii "created_on", Json.str l) = none := by
      intro acc
      unfold readMember
      have h4 : unquote (ascii "created_on") = ascii "created_on" := unquote_tag (by decide +kernel)
      have h5 := pickField_mem (fs := k.body.map Fld.inZone ++ [k.stamp]) (f := k.stamp)
        (by rw [k.names_zoned]; exact h.names) (by simp)
      rw [show k.stamp.name = ascii "created_on" from rfl] at h5
      simp only [h4, h5]
      change (parseZTime l).map _ = none
      rw [hn]
      rfl
    simp [hlast]

/-- When there is a text. -/
theorem Stamped.zoned_writes (k : Stamped σ) (s : σ) (o : Int) :
    k.zoned.Writes (s, o) ↔ (∀ f ∈ k.body, f.codec.Writes (f.get s)) ∧ Dated (k.get s + o * minuteNs) := by
  unfold Stamped.zoned
  rw [structC_writes]
  have hst : k.stamp.codec.Writes (k.stamp.get (s, o)) ↔ Dated (k.get s + o * minuteNs) :=
    ztimeC_writes ⟨k.get s, o⟩
  constructor
  · exact fun h => ⟨fun f hf => h _ (List.mem_append_left _ (List.mem_map_of_mem hf)),
      hst.mp (h _ (by simp))⟩
  · rintro ⟨h1, h2⟩ f hf
    rcases List.mem_append.mp hf with hf | hf
    · obtain ⟨g, hg, rfl⟩ := List.mem_map.mp hf
      exact h1 g hg
    · rw [List.mem_singleton.mp hf]
      exact hst.mpr h2

theorem find_inZone (p : Bytes → Bool) (k : Stamped σ) :
    ((k.body.map Fld.inZone ++ [k.stamp]).find? fun f => p f.name) =
      (((k.body.find? fun f => p f.name).map Fld.inZone).or
        (if p (ascii "created_on") then some k.stamp else none)) ∧
    ((k.body ++ [fld "created_on" timeC k.get k.set]).find? fun f => p f.name) =
      ((k.body.find? fun f => p f.name).or
        (if p (ascii "created_on") then some (fld "created_on" timeC k.get k.set) else none)) := by
  constructor
  · rw [List.find?_append, List.find?_map]
    congr 1
    by_cases h : p (ascii "created_on") = true
    · simp only [h, if_true]
      rw [List.find?_cons_of_pos (by exact h)]
    · simp only [h]
      rw [List.find?_cons_of_neg (by exact h)]
      rfl
  · rw [List.find?_append]
    congr 1
    by_cases h : p (ascii "created_on") = true
    · simp only [h, if_true]
      rw [List.find?_cons_of_pos (by exact h)]
    · simp only [h]
      rw [List.find?_cons_of_neg (by exact h)]
      rfl

/-- The member that is picked, with zones and without. -/
theorem pick_inZone (k : Stamped σ) (n : Bytes) :
    (∃ f ∈ k.body, pickField (k.body.map Fld.inZone ++ [k.stamp]) n = some f.inZone ∧
      pickField (k.body ++ [fld "created_on" timeC k.get k.set]) n = some f) ∨
    (pickField (k.body.map Fld.inZone ++ [k.stamp]) n = some k.stamp ∧
      pickField (k.body ++ [fld "created_on" timeC k.get k.set]) n =
        some (fld "created_on" timeC k.get k.set)) ∨
    (pickField (k.body.map Fld.inZone ++ [k.stamp]) n = none ∧
      pickField (k.body ++ [fld "created_on" timeC k.get k.set]) n = none) := by
  unfold pickField
  obtain ⟨e1, e2⟩ := find_inZone (fun m => m == n) k
  obtain ⟨e3, e4⟩ := find_inZone (fun m => foldName m == foldName n) k
  rw [e1, e2]
  cases h : k.body.find? fun f => f.name == n with
  | some f => exact .inl ⟨f, List.mem_of_find?_eq_some h, rfl, rfl⟩
  | none =>
    by_cases h1 : (ascii "created_on" == n) = true
    · right; left
      simp [h1]
    · simp only [h1, Option.map_none, Option.none_or]
      simp only [Bool.false_eq_true, if_false]
      rw [e3, e4]
      cases h : k.body.find? fun f => foldName f.name == foldName n with
      | some f => exact .inl ⟨f, List.mem_of_find?_eq_some h, rfl, rfl⟩
      | none =>
        by_cases h2 : (foldName (ascii "created_on") == foldName n) = true
        · right; left
          simp [h2]
        · right; right
          simp [h2]

/-- One member, with zones and without. -/
theorem readMember_inZone (k : Stamped σ) (a : σ × Int) (m : Bytes × Json) :
    readMember (k.body ++ [fld "created_on" timeC k.get k.set]) a.1 m =
      (readMember (k.body.map Fld.inZone ++ [k.stamp]) a m).map Prod.fst := by
  unfold readMember
  rcases pick_inZone k (unquote m.1) with ⟨f, -, h1, h2⟩ | ⟨h1, h2⟩ | ⟨h1, h2⟩
  · rw [h1, h2]
    simp [Fld.inZone, Option.map_map, Function.comp_def]
  · rw [h1, h2]
    simp only [Stamped.stamp, fld, Option.map_map, Function.comp_def]
    cases m.2 with
    | str l =>
      simp only [timeC, ztimeC, parseTime_eq, Option.map_map, Function.comp_def]
    | null => rfl
    | _ => rfl
  · rw [h1, h2]
    rfl

/-- The reader without zones reads what the reader with zones reads. -/
theorem Stamped.read_fst (k : Stamped σ) (b : Bytes) : k.utc.read b = (k.zoned.read b).map Prod.fst := by
  unfold Codec.read
  cases parseJson b with
  | none => rfl
  | some j =>
    simp only [Option.bind_eq_bind, Option.bind_some]
    cases j with
    | obj ms =>
      have : ∀ (ms : List (Bytes × Json)) (a : σ × Int),
          ms.foldlM (readMember (k.body ++ [fld "created_on" timeC k.get k.set])) a.1 =
            (ms.foldlM (readMember (k.body.map Fld.inZone ++ [k.stamp])) a).map Prod.fst := by
        intro ms
        induction ms with
        | nil => intro a; rfl
        | cons m ms ih =>
          intro a
          rw [List.foldlM_cons, List.foldlM_cons, readMember_inZone]
          cases readMember (k.body.map Fld.inZone ++ [k.stamp]) a m with
          | none => rfl
          | some a' => exact ih a'
      exact this ms (k.zero, 0)
    | null => rfl
    | _ => rfl

/-- The zone that is read, and the time in it. -/
theorem Stamped.Lawful.read_bounds {k : Stamped σ} (h : k.Lawful) {b : Bytes} {s : σ} {o : Int}
    (hr : k.zoned.read b = some (s, o)) : Dated (k.get s + o * minuteNs) ∧ o.natAbs ≤ 6039 := by
  have h0 : Dated (k.get k.zero + 0 * minuteNs) ∧ (0 : Int).natAbs ≤ 6039 := by
    rw [h.get_zero]
    decide
  unfold Codec.read at hr
  simp only [Option.bind_eq_bind, Option.bind_eq_some_iff] at hr
  obtain ⟨j, -, hr⟩ := hr
  cases j with
  | obj ms =>
    have : ∀ (ms : List (Bytes × Json)) (a c : σ × Int),
        Dated (k.get a.1 + a.2 * minuteNs) ∧ a.2.natAbs ≤ 6039 →
        ms.foldlM (readMember (k.body.map Fld.inZone ++ [k.stamp])) a = some c →
        Dated (k.get c.1 + c.2 * minuteNs) ∧ c.2.natAbs ≤ 6039 := by
      intro ms
      induction ms with
      | nil =>
        intro a c ha hc
        cases hc
        exact ha
      | cons m ms ih =>
        intro a c ha hc
        rw [List.foldlM_cons] at hc
        simp only [Option.bind_eq_bind, Option.bind_eq_some_iff] at hc
        obtain ⟨a', h1, hc⟩ := hc
        refine ih a' c ?_ hc
        unfold readMember at h1
        rcases pick_inZone k (unquote m.1) with ⟨f, hf, h2, -⟩ | ⟨h2, -⟩ | ⟨h2, -⟩
        · rw [h2] at h1
          simp only [Option.map_eq_some_iff] at h1
          obtain ⟨x, -, rfl⟩ := h1
          have e : k.get (f.inZone.set x a).1 = k.get a.1 := h.get_body f hf x a.1
          rw [e]
          exact ha
        · rw [h2] at h1
          simp only [Option.map_eq_some_iff] at h1
          obtain ⟨x, hx, rfl⟩ := h1
          change Dated (k.get (k.set x.ns a.1) + x.zone * minuteNs) ∧ x.zone.natAbs ≤ 6039
          rw [h.get_set]
          cases hm : m.2 with
          | str l =>
            rw [hm] at hx
            exact fmtZTime_of_parse (b := l) hx
          | null =>
            rw [hm] at hx
            cases hx
            exact ha
          | _ => rw [hm] at hx; cases hx
        · rw [h2] at h1
          cases h1
          exact ha
    exact this ms (k.zero, 0) (s, o) h0 hr
  | null =>
    cases hr
    exact h0
  | _ => cases hr

/-! ## The structures of the module -/

macro "stamp_lawful" : tactic => `(tactic| (
  refine ⟨?_, ?_, fun _ _ => rfl, rfl, fun _ _ => rfl, ?_⟩
  · simp only [List.map_cons, List.map_nil, fld]
    decide +kernel
  · simp only [List.forall_mem_cons, fld, List.not_mem_nil, false_imp_iff, implies_true, and_true]
    decide +kernel
  · simp only [List.forall_mem_cons, fld, List.not_mem_nil, false_imp_iff, implies_true, and_true]))

theorem lockStamp_lawful : lockStamp.Lawful := by unfold lockStamp; stamp_lawful
theorem trLockStamp_lawful : trLockStamp.Lawful := by unfold trLockStamp; stamp_lawful
theorem trBillStamp_lawful : trBillStamp.Lawful := by unfold trBillStamp; stamp_lawful
theorem trExpenseStamp_lawful : trExpenseStamp.Lawful := by unfold trExpenseStamp; stamp_lawful
theorem trGenesisStamp_lawful [FloatText] : trGenesisStamp.Lawful := by unfold trGenesisStamp; stamp_lawful
theorem trTransactionStamp_lawful : trTransactionStamp.Lawful := by unfold trTransactionStamp; stamp_lawful
theorem trBlockStamp_lawful : trBlockStamp.Lawful := by unfold trBlockStamp; stamp_lawful
theorem trMinedBlockStamp_lawful : trMinedBlockStamp.Lawful := by unfold trMinedBlockStamp; stamp_lawful
theorem trMinedLinkStamp_lawful : trMinedLinkStamp.Lawful := by unfold trMinedLinkStamp; stamp_lawful
theorem trLinkStamp_lawful : trLinkStamp.Lawful := by unfold trLinkStamp; stamp_lawful
theorem trChainStamp_lawful : trChainStamp.Lawful := by unfold trChainStamp; stamp_lawful
theorem trStateStamp_lawful : trStateStamp.Lawful := by unfold trStateStamp; stamp_lawful

end Verif
