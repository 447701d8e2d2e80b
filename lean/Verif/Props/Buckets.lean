import Verif.Spec.Buckets
import Verif.Props.HashTree

/-!
# Buckets: C56, C62, C83, C84
-/

namespace Verif

section
variable [Sha512]

/-! ## Builders -/

theorem chunkNow_eq_ok {n : UInt64} {d : Option Hash} {t : Time} {c : Chunk} :
    chunkNow n d t = .ok c ↔ 0 < n ∧ ∃ h, d = some h ∧
      c = ⟨fromBytes (itoaU n ++ h.bytes), n, h, t⟩ := by
  unfold chunkNow
  by_cases hn : n ≤ 0
  · rw [if_pos hn]
    simp only [reduceCtorEq, false_iff, not_and]
    intro h
    exact absurd hn (UInt64.not_le.mpr h)
  · rw [if_neg hn]
    have hn' : 0 < n := UInt64.not_le.mp hn
    cases d with
    | none => simp
    | some h =>
      simp only [Outcome.ok.injEq, Option.some.injEq, fromMultiBytes, List.flatten_cons,
        List.flatten_nil, List.append_nil]
      constructor
      · rintro rfl; exact ⟨hn', h, rfl, rfl⟩
      · rintro ⟨-, h', rfl, rfl⟩; rfl

theorem bfileNow_eq_ok {p : Bytes} {cs : Option (List Chunk)} {t : Time} {f : BFile} :
    bfileNow p cs t = .ok f ↔ p ≠ [] ∧ ∃ l, cs = some l ∧ l ≠ [] ∧
      f = ⟨fromBytes (p ++ hashesBytes (l.map Chunk.hash)), p, l, t⟩ := by
  unfold bfileNow
  by_cases hp : p = []
  · rw [if_pos hp]; simp [hp]
  · rw [if_neg hp]
    cases cs with
    | none => simp
    | some l =>
      have : ([p] ++ l.map fun c => c.hash.bytes).flatten = p ++ hashesBytes (l.map Chunk.hash) := by
        simp [hashesBytes, Function.comp_def]
      by_cases hl : l = []
      · simp [hl]
      · have h0 : ¬ l.length ≤ 0 := by simpa using hl
        simp only [if_neg h0, Outcome.ok.injEq, Option.some.injEq, fromMultiBytes, this]
        constructor
        · rintro rfl; exact ⟨hp, l, rfl, hl, rfl⟩
        · rintro ⟨-, l', rfl, -, rfl⟩; rfl

theorem bucketNow_eq_ok {fs : Option (List BFile)} {t : Time} {b : Bucket} :
    bucketNow fs t = .ok b ↔ ∃ l, fs = some l ∧ l ≠ [] ∧
      b = ⟨fromBytes (hashesBytes (l.map BFile.hash)), l, t⟩ := by
  unfold bucketNow
  cases fs with
  | none => simp
  | some l =>
    have : (l.map fun f => f.hash.bytes).flatten = hashesBytes (l.map BFile.hash) := by
      simp [hashesBytes, Function.comp_def]
    by_cases hl : l = []
    · simp [hl]
    · have h0 : ¬ l.length ≤ 0 := by simpa using hl
      simp only [if_neg h0, Outcome.ok.injEq, Option.some.injEq, fromMultiBytes, this]
      constructor
      · rintro rfl; exact ⟨l, rfl, hl, rfl⟩
      · rintro ⟨l', rfl, -, rfl⟩; rfl

/-! ## C56 -/

omit [Sha512] in
theorem slices_prefix (data : Bytes) (size : Nat) : ∀ m : Nat,
    ((List.range m).map fun i => (data.take ((i + 1) * size)).drop (i * size)).flatten =
      data.take (m * size) := by
  intro m
  induction m with
  | zero => simp
  | succ m ih =>
    rw [List.range_succ, List.map_append, List.flatten_append, ih]
    have : data.take (m * size) = (data.take ((m + 1) * size)).take (m * size) := by
      rw [List.take_take, Nat.min_eq_left (Nat.mul_le_mul_right _ (Nat.le_succ m))]
    rw [this]
    simp

omit [Sha512] in
/-- The parts a content is cut into. -/
theorem slices_spec {data : Bytes} {size : Nat} (hs : 0 < size) (h : size ≤ data.length) :
    ∃ parts last, slices data size = parts ++ [last] ∧ (parts ++ [last]).flatten = data ∧
      (∀ p ∈ parts, p.length = size) ∧ size ≤ last.length ∧ last.length < 2 * size := by
  have hL : 0 < data.length / size := Nat.div_pos h hs
  obtain ⟨m, hm⟩ : ∃ m, data.length / size = m + 1 := ⟨_, (Nat.succ_pred_eq_of_pos hL).symm⟩
  have hdm := Nat.div_add_mod data.length size
  have hmod := Nat.mod_lt data.length hs
  rw [hm, Nat.mul_add, Nat.mul_one, Nat.mul_comm size m] at hdm
  refine ⟨(List.range m).map fun i => (data.take ((i + 1) * size)).drop (i * size),
    data.drop (m * size), ?_, ?_, ?_, ?_, ?_⟩
  · unfold slices chunkLoops
    simp only [hm]
    rw [List.range_succ, List.map_append]
    congr 1
    · refine List.map_congr_left fun i hi => ?_
      have := List.mem_range.mp hi
      rw [if_neg (by omega)]
    · simp
  · rw [List.flatten_append, slices_prefix]
    simp
  · intro p hp
    obtain ⟨i, hi, rfl⟩ := List.mem_map.mp hp
    have hi := List.mem_range.mp hi
    have h1 : (i + 1) * size ≤ m * size := Nat.mul_le_mul_right _ hi
    rw [List.length_drop, List.length_take, Nat.min_eq_left (by omega), Nat.add_mul, Nat.one_mul]
    omega
  · rw [List.length_drop]; omega
  · rw [List.length_drop]; omega

omit [Sha512] in
theorem slices_short {data : Bytes} {size : Nat} (h : data.length < size) : slices data size = [] := by
  unfold slices chunkLoops
  rw [Nat.div_eq_of_lt h]
  rfl

theorem sliceChunk_ok {t : Time} {part : Bytes} (h0 : 0 < part.length) (hlt : part.length < 2 ^ 63) :
    ∃ c, sliceChunk t part = .ok c ∧ c.Of part ∧ c.Built := by
  have hn : (UInt64.ofNat part.length).toNat = part.length := by
    rw [UInt64.toNat_ofNat']
    exact Nat.mod_eq_of_lt (by norm_num at hlt ⊢; omega)
  have hpos : 0 < UInt64.ofNat part.length := by
    rw [UInt64.lt_iff_toNat_lt, hn]; exact h0
  have := (chunkNow_eq_ok (n := UInt64.ofNat part.length) (d := some (fromBytes part)) (t := t)).mpr
    ⟨hpos, _, rfl, rfl⟩
  exact ⟨_, this, ⟨hn, rfl⟩, _, _, _, this⟩

/-- C56: a file that is at least one chunk long gets chunks for consecutive parts of its content,
all but the last of exactly the chunk size, the last one shorter than two chunk sizes. -/
theorem C56_chunks_cover {size : Nat} (hs : 0 < size) (now : Time) {path content : Bytes}
    (hpath : path ≠ []) (h : size ≤ content.length) (hmax : content.length < 2 ^ 63) :
    ∃ f, dirFileToFile size now path content = .ok f ∧ f.Of size path content ∧ f.Built := by
  obtain ⟨parts, last, h1, h2, h3, h4, h5⟩ := slices_spec hs h
  have hlen : ∀ p ∈ parts ++ [last], 0 < p.length ∧ p.length < 2 ^ 63 := by
    intro p hp
    have hle : p.length ≤ content.length := by
      rw [← h2]
      exact (List.sublist_flatten_of_mem hp).length_le
    refine ⟨?_, by omega⟩
    rcases List.mem_append.mp hp with hp | hp
    · rw [h3 p hp]; exact hs
    · simp at hp; subst hp; omega
  have : ∀ l : List Bytes, (∀ p ∈ l, 0 < p.length ∧ p.length < 2 ^ 63) →
      ∃ cs, mapO (sliceChunk now) l = .ok cs ∧ List.Forall₂ Chunk.Of cs l ∧ ∀ c ∈ cs, c.Built := by
    intro l
    induction l with
    | nil => intro _; exact ⟨[], rfl, .nil, by simp⟩
    | cons p l ih =>
      intro hl
      obtain ⟨c, hc, ho, hb⟩ := sliceChunk_ok (t := now) (hl p (by simp)).1 (hl p (by simp)).2
      obtain ⟨cs, hcs, hos, hbs⟩ := ih fun q hq => hl q (by simp [hq])
      exact ⟨c :: cs, by simp [mapO, hc, hcs], .cons ho hos, by simpa using ⟨hb, hbs⟩⟩
  obtain ⟨cs, hcs, hos, hbs⟩ := this _ hlen
  have hne : cs ≠ [] := by
    rintro rfl
    have := hos.length_eq
    simp at this
  have hf := (bfileNow_eq_ok (p := path) (cs := some cs) (t := now)).mpr ⟨hpath, cs, rfl, hne, rfl⟩
  refine ⟨_, ?_, ⟨rfl, parts, last, h2, hos, h3, h4, h5⟩, ⟨_, _, _, hf⟩, hbs⟩
  unfold dirFileToFile
  rw [h1, hcs]
  exact hf

/-- C56: a file shorter than a chunk, in particular an empty one, gets no chunk, so that no file can
be built from it: the result is an error. -/
theorem C56_short_file_refused {size : Nat} (now : Time) (path content : Bytes)
    (h : content.length < size) : ∃ e, dirFileToFile size now path content = .err e := by
  unfold dirFileToFile
  rw [slices_short h]
  simp only [mapO, Outcome.bind_ok, bfileNow]
  split
  · exact ⟨_, rfl⟩
  · exact ⟨_, rfl⟩

/-! ## C83 -/

omit [Sha512] in
/-- The regular files of a directory tree, in order. -/
def listing : List (Bytes × Tree) → List (List Bytes × Bytes)
  | [] => []
  | (n, .dir sub) :: rest => (listing sub).map (fun e => (n :: e.1, e.2)) ++ listing rest
  | (n, .file c) :: rest => ([n], c) :: listing rest

omit [Sha512] in
theorem mem_listing (es : List (Bytes × Tree)) : ∀ ns c, (ns, c) ∈ listing es ↔ InTree es ns c := by
  fun_induction listing es with
  | case1 =>
    intro ns c
    constructor
    · intro h; cases h
    · rintro (h | ⟨h, -⟩) <;> cases h
  | case2 n sub rest ih1 ih2 =>
    intro ns c
    rw [List.mem_append, ih2]
    constructor
    · rintro (h | h)
      · obtain ⟨⟨ns', c'⟩, h1, h2⟩ := List.mem_map.mp h
        simp only [Prod.mk.injEq] at h2
        obtain ⟨rfl, rfl⟩ := h2
        exact .inside (by simp) ((ih1 _ _).mp h1)
      · cases h with
        | here h => exact .here (by simp [h])
        | inside h h' => exact .inside (List.mem_cons_of_mem _ h) h'
    · intro h
      cases h with
      | here h => exact .inr (.here (by simpa using h))
      | inside h h' =>
        rcases List.mem_cons.mp h with e | h
        · simp only [Prod.mk.injEq, Tree.dir.injEq] at e
          obtain ⟨rfl, rfl⟩ := e
          exact .inl (List.mem_map.mpr ⟨(_, _), (ih1 _ _).mpr h', rfl⟩)
        · exact .inr (.inside h h')
  | case3 n c' rest ih =>
    intro ns c
    rw [List.mem_cons, ih]
    constructor
    · rintro (h | h)
      · simp only [Prod.mk.injEq] at h
        obtain ⟨rfl, rfl⟩ := h
        exact .here (by simp)
      · cases h with
        | here h => exact .here (by simp [h])
        | inside h h' => exact .inside (List.mem_cons_of_mem _ h) h'
    · intro h
      cases h with
      | here h =>
        rcases List.mem_cons.mp h with e | h
        · simp only [Prod.mk.injEq, Tree.file.injEq] at e
          obtain ⟨rfl, rfl⟩ := e
          exact .inl rfl
        · exact .inr (.here h)
      | inside h h' => exact .inr (.inside (by simpa using h) h')

omit [Sha512] in
theorem listing_ne_nil {es : List (Bytes × Tree)} {ns : List Bytes} {c : Bytes}
    (h : InTree es ns c) : ns ≠ [] := by
  cases h <;> simp

omit [Sha512] in
theorem InTree.proper {es : List (Bytes × Tree)} {ns : List Bytes} {c : Bytes}
    (h : InTree es ns c) (ht : Tidy es) : ∀ n ∈ ns, ProperName n := by
  have key : ∀ {es : List (Bytes × Tree)}, Tidy es → ∀ e ∈ es, ProperName e.1 := by
    intro es h
    induction h with
    | nil => simp
    | file hn _ _ ih => simpa using ⟨hn, by simpa using ih⟩
    | dir hn _ _ _ _ ih => simpa using ⟨hn, by simpa using ih⟩
  have sub : ∀ {es : List (Bytes × Tree)}, Tidy es → ∀ n s, (n, Tree.dir s) ∈ es → Tidy s := by
    intro es h
    induction h with
    | nil => simp
    | file _ _ _ ih => intro n s hm; exact ih n s (by simpa using hm)
    | dir _ _ hs _ _ ih =>
      intro n s hm
      rcases List.mem_cons.mp hm with e | hm
      · simp only [Prod.mk.injEq, Tree.dir.injEq] at e
        rw [e.2]; exact hs
      · exact ih n s hm
  induction h with
  | here h => simpa using key ht _ h
  | inside h _ ih =>
    intro n hn
    rcases List.mem_cons.mp hn with rfl | hn
    · exact key ht _ h
    · exact ih (sub ht _ _ h) n hn

omit [Sha512] in
/-- Different places of a tidy tree. -/
theorem Tidy.nodup {es : List (Bytes × Tree)} (h : Tidy es) : ((listing es).map Prod.fst).Nodup := by
  have first : ∀ {es : List (Bytes × Tree)} {ns c}, InTree es ns c →
      ∃ n ns', ns = n :: ns' ∧ n ∈ es.map Prod.fst := by
    intro es ns c h
    cases h with
    | here h => exact ⟨_, [], rfl, List.mem_map_of_mem h⟩
    | inside h _ => exact ⟨_, _, rfl, List.mem_map_of_mem h⟩
  induction h with
  | nil => simp [listing]
  | @file n c es _ hn _ ih =>
    simp only [listing, List.map_cons, List.nodup_cons]
    refine ⟨fun hm => ?_, ih⟩
    obtain ⟨⟨ns, c'⟩, hm, e⟩ := List.mem_map.mp hm
    obtain ⟨n', ns', e', hn'⟩ := first ((mem_listing _ _ _).mp hm)
    simp only at e
    rw [e] at e'
    simp only [List.cons.injEq] at e'
    rw [← e'.1] at hn'
    exact hn hn'
  | @dir n sub es _ hn _ _ ih1 ih2 =>
    simp only [listing, List.map_append, List.map_map]
    rw [List.nodup_append]
    refine ⟨?_, ih2, ?_⟩
    · have : (Prod.fst ∘ fun e : List Bytes × Bytes => (n :: e.1, e.2)) =
          (fun l => n :: l) ∘ Prod.fst := rfl
      rw [this, ← List.map_map]
      exact ih1.map fun a b h => by simpa using h
    · intro x hx y hy hxy
      subst hxy
      obtain ⟨⟨ns, c⟩, -, e⟩ := List.mem_map.mp hx
      obtain ⟨⟨ns', c'⟩, hm, e'⟩ := List.mem_map.mp hy
      obtain ⟨n', ns'', e'', hn'⟩ := first ((mem_listing _ _ _).mp hm)
      simp only [Function.comp] at e e'
      rw [← e', ] at e
      rw [e''] at e
      simp only [List.cons.injEq] at e
      rw [← e.1] at hn'
      exact hn hn'

omit [Sha512] in
theorem joinPath_joinWith (pre n : Bytes) (hn : n ≠ []) (ns : List Bytes) (hns : ns ≠ [])
    (hjw : joinWith 47 ns ≠ []) :
    Hash.joinPath (Hash.joinPath pre n) (joinWith 47 ns) =
      Hash.joinPath pre (joinWith 47 (n :: ns)) := by
  have : joinWith 47 (n :: ns) = n ++ 47 :: joinWith 47 ns := by
    cases ns with
    | nil => exact absurd rfl hns
    | cons m ns => rfl
  rw [this]
  unfold Hash.joinPath
  by_cases hp : pre = []
  · simp [hp, hn, hjw]
  · simp [hp, hn, hjw]

omit [Sha512] in
theorem joinWith_ne_nil {ns : List Bytes} (h : ns ≠ []) (hp : ∀ n ∈ ns, ProperName n) :
    joinWith 47 ns ≠ [] := by
  cases ns with
  | nil => exact absurd rfl h
  | cons n ns =>
    have := (hp n (by simp)).1
    cases ns with
    | nil => exact this
    | cons m ns => simp [joinWith]

omit [Sha512] in
theorem forall₂_append_left {α β : Type} {R : α → β → Prop} : ∀ {l₁ l₂ : List α} {l : List β},
    List.Forall₂ R (l₁ ++ l₂) l → ∃ a b, List.Forall₂ R l₁ a ∧ List.Forall₂ R l₂ b ∧ l = a ++ b
  | [], _, l, h => ⟨[], l, .nil, h, rfl⟩
  | x :: l₁, l₂, _, h => by
    cases h with
    | cons hx h =>
      obtain ⟨a, b, ha, hb, rfl⟩ := forall₂_append_left h
      exact ⟨_ :: a, b, .cons hx ha, hb, rfl⟩

/-- The files built from a directory, against its listing. -/
theorem dirToFiles_eq_ok {size : Nat} {now : Time} (es : List (Bytes × Tree)) (pre : Bytes) :
    Tidy es → ∀ fs, dirToFiles size now pre es = .ok fs ↔
      List.Forall₂ (fun (e : List Bytes × Bytes) f =>
        dirFileToFile size now (Hash.joinPath pre (joinWith 47 e.1)) e.2 = .ok f) (listing es) fs := by
  fun_induction dirToFiles size now pre es with
  | case1 pre => intro _ fs; simp [listing, eq_comm]
  | case2 pre n sub rest ih1 ih2 =>
    intro ht fs
    cases ht with
    | dir hn _ hs hr =>
      simp only [Outcome.bind_eq_ok, ih1 hs, ih2 hr, listing]
      have hmap : ∀ l, List.Forall₂ (fun (e : List Bytes × Bytes) f =>
          dirFileToFile size now (Hash.joinPath pre (joinWith 47 e.1)) e.2 = .ok f)
            ((listing sub).map fun e => (n :: e.1, e.2)) l ↔
          List.Forall₂ (fun (e : List Bytes × Bytes) f =>
          dirFileToFile size now (Hash.joinPath (Hash.joinPath pre n) (joinWith 47 e.1)) e.2 = .ok f)
            (listing sub) l := by
        intro l
        rw [List.forall₂_map_left_iff]
        refine ⟨fun h => ?_, fun h => ?_⟩
        all_goals
          refine List.Forall₂.imp ?_ ((List.forall₂_and_left _ _).mpr ⟨fun e he => he, h⟩)
          rintro ⟨ns, c⟩ f ⟨hm, hf⟩
          have hin := (mem_listing _ _ _).mp hm
          have h1 := listing_ne_nil hin
          have h2 := joinWith_ne_nil h1 (hin.proper hs)
          simpa only [joinPath_joinWith pre n hn.1 ns h1 h2] using hf
      constructor
      · rintro ⟨a, ha, b, hb, e⟩
        simp only [Outcome.ok.injEq] at e
        subst e
        exact List.rel_append ((hmap a).mpr ha) hb
      · intro h
        obtain ⟨a, b, ha, hb, rfl⟩ := forall₂_append_left h
        exact ⟨a, (hmap a).mp ha, b, hb, rfl⟩
  | case3 pre n c rest ih =>
    intro ht fs
    cases ht with
    | file hn _ hr =>
      simp only [Outcome.bind_eq_ok, ih hr, listing]
      constructor
      · rintro ⟨f, hf, b, hb, e⟩
        simp only [Outcome.ok.injEq] at e
        subst e
        exact .cons hf hb
      · intro h
        cases h with
        | cons hf hb => exact ⟨_, hf, _, hb, rfl⟩

theorem dirFileToFile_ok {size : Nat} (hs : 0 < size) {now : Time} {path content : Bytes}
    (hmax : content.length < 2 ^ 63) {f : BFile} (h : dirFileToFile size now path content = .ok f) :
    size ≤ content.length ∧ f.Of size path content ∧ f.Built := by
  by_cases hle : size ≤ content.length
  · by_cases hp : path = []
    · unfold dirFileToFile at h
      subst hp
      obtain ⟨cs, hcs, h⟩ := Outcome.bind_eq_ok.mp h
      rw [bfileNow_eq_ok] at h
      exact absurd rfl h.1
    · obtain ⟨f', h1, h2⟩ := C56_chunks_cover hs now hp hle hmax
      rw [h1] at h
      cases h
      exact ⟨hle, h2⟩
  · obtain ⟨e, he⟩ := C56_short_file_refused (size := size) now path content (by omega)
    rw [he] at h
    cases h

omit [Sha512] in
theorem joinPath_nil (x : Bytes) : Hash.joinPath [] x = x := by simp [Hash.joinPath]

/-- C83: adding a directory succeeds in making a bucket exactly when there is a regular file in it
and none that is shorter than a chunk. -/
theorem C83_bucket_made_iff {size : Nat} (hs : 0 < size) (now : Time) {es : List (Bytes × Tree)}
    (ht : Tidy es) (hmax : ∀ ns c, InTree es ns c → c.length < 2 ^ 63) :
    (∃ b, dirToBucket size now es = .ok b) ↔
      (∃ ns c, InTree es ns c) ∧ ∀ ns c, InTree es ns c → size ≤ c.length := by
  constructor
  · rintro ⟨b, hb⟩
    obtain ⟨fs, hfs, hb⟩ := Outcome.bind_eq_ok.mp hb
    obtain ⟨l, e, hne, -⟩ := bucketNow_eq_ok.mp hb
    cases e
    rw [dirToFiles_eq_ok es [] ht] at hfs
    constructor
    · cases hl : listing es with
      | nil => rw [hl] at hfs; cases hfs; exact absurd rfl hne
      | cons e l => exact ⟨e.1, e.2, (mem_listing es _ _).mp (by rw [hl]; simp)⟩
    · intro ns c h
      have hm := (mem_listing es _ _).mpr h
      have : ∃ f, dirFileToFile size now (Hash.joinPath [] (joinWith 47 ns)) c = .ok f := by
        clear hne hb
        revert hm
        generalize listing es = l at hfs
        induction hfs with
        | nil => intro hm; cases hm
        | cons hf _ ih =>
          intro hm
          rcases List.mem_cons.mp hm with e | hm
          · cases e; exact ⟨_, hf⟩
          · exact ih hm
      obtain ⟨f, hf⟩ := this
      exact (dirFileToFile_ok hs (hmax ns c h) hf).1
  · rintro ⟨⟨ns, c, hin⟩, hall⟩
    have : ∀ l : List (List Bytes × Bytes), (∀ e ∈ l, InTree es e.1 e.2) →
        ∃ fs, List.Forall₂ (fun (e : List Bytes × Bytes) f =>
          dirFileToFile size now (Hash.joinPath [] (joinWith 47 e.1)) e.2 = .ok f) l fs := by
      intro l
      induction l with
      | nil => intro _; exact ⟨[], .nil⟩
      | cons e l ih =>
        intro hl
        obtain ⟨fs, hfs⟩ := ih fun x hx => hl x (by simp [hx])
        have he := hl e (by simp)
        obtain ⟨f, hf, -⟩ := C56_chunks_cover hs now (path := Hash.joinPath [] (joinWith 47 e.1))
          (by rw [joinPath_nil]; exact joinWith_ne_nil (listing_ne_nil he) (he.proper ht))
          (hall _ _ he) (hmax _ _ he)
        exact ⟨f :: fs, .cons hf hfs⟩
    obtain ⟨fs, hfs⟩ := this (listing es) fun e he => (mem_listing es e.1 e.2).mp he
    have hne : fs ≠ [] := by
      rintro rfl
      have h1 := (mem_listing es ns c).mpr hin
      have h2 := hfs.length_eq
      simp only [List.length_nil, List.length_eq_zero_iff] at h2
      rw [h2] at h1
      cases h1
    refine ⟨⟨fromBytes (hashesBytes (fs.map BFile.hash)), fs, now⟩, ?_⟩
    unfold dirToBucket
    rw [(dirToFiles_eq_ok es [] ht fs).mpr hfs, Outcome.bind_ok]
    exact bucketNow_eq_ok.mpr ⟨fs, rfl, hne, rfl⟩

/-- C83: the bucket made from a directory covers it: the files found in it by path are exactly the
regular files of the directory, at any depth, under their paths relative to it, and each one records
chunks that cover the content; no path occurs twice. -/
theorem C83_bucket_covers_directory {size : Nat} (hs : 0 < size) (now : Time)
    {es : List (Bytes × Tree)} (ht : Tidy es) (hmax : ∀ ns c, InTree es ns c → c.length < 2 ^ 63)
    {b : Bucket} (hb : dirToBucket size now es = .ok b) :
    (∀ ns c, InTree es ns c → ∃ f, b.fileByPath (joinWith 47 ns) = .ok f ∧
      f.Of size (joinWith 47 ns) c) ∧
    (∀ p f, b.fileByPath p = .ok f → ∃ ns c, InTree es ns c ∧ p = joinWith 47 ns ∧ f.Of size p c) ∧
    (b.files.map BFile.relativePath).Nodup ∧ b.Built := by
  obtain ⟨fs, hfs, hbuilt⟩ := Outcome.bind_eq_ok.mp hb
  clear hb
  have hb := hbuilt
  obtain ⟨l, e, hne, rfl⟩ := bucketNow_eq_ok.mp hb
  cases e
  rw [dirToFiles_eq_ok es [] ht] at hfs
  simp only [joinPath_nil] at hfs
  have hrel : List.Forall₂ (fun (e : List Bytes × Bytes) f => InTree es e.1 e.2 ∧
      BFile.Of f size (joinWith 47 e.1) e.2 ∧ f.Built) (listing es) fs := by
    refine List.Forall₂.imp ?_ ((List.forall₂_and_left _ _).mpr ⟨fun e he => he, hfs⟩)
    rintro ⟨ns, c⟩ f ⟨hm, hf⟩
    have hin := (mem_listing _ _ _).mp hm
    exact ⟨hin, (dirFileToFile_ok hs (hmax _ _ hin) hf).2⟩
  have hpaths : fs.map BFile.relativePath = ((listing es).map Prod.fst).map (joinWith 47) := by
    clear hb hbuilt hfs hne
    generalize listing es = l at hrel
    induction hrel with
    | nil => rfl
    | cons h _ ih => simp only [List.map_cons, ih, h.2.1.1]
  have hnd : (fs.map BFile.relativePath).Nodup := by
    rw [hpaths]
    refine List.Nodup.map_on ?_ ht.nodup
    intro a ha a' ha' h
    obtain ⟨⟨ns, c⟩, hm, rfl⟩ := List.mem_map.mp ha
    obtain ⟨⟨ns', c'⟩, hm', rfl⟩ := List.mem_map.mp ha'
    have i1 := (mem_listing _ _ _).mp hm
    have i2 := (mem_listing _ _ _).mp hm'
    rw [← splitOn_joinWith (sep := 47) (listing_ne_nil i1) fun p hp => (i1.proper ht p hp).2.2.2,
      ← splitOn_joinWith (sep := 47) (listing_ne_nil i2) fun p hp => (i2.proper ht p hp).2.2.2, h]
  have hmem : ∀ f, f ∈ fs → ∃ e ∈ listing es, InTree es e.1 e.2 ∧
      BFile.Of f size (joinWith 47 e.1) e.2 ∧ f.Built := by
    intro f hf
    clear hb hbuilt hfs hne hpaths hnd
    generalize listing es = l at hrel
    induction hrel with
    | nil => cases hf
    | cons h _ ih =>
      rcases List.mem_cons.mp hf with rfl | hf
      · exact ⟨_, by simp, h⟩
      · obtain ⟨e, he, h⟩ := ih hf
        exact ⟨e, by simp [he], h⟩
  have hmem' : ∀ e ∈ listing es, ∃ f ∈ fs, BFile.Of f size (joinWith 47 e.1) e.2 := by
    intro e he
    clear hb hbuilt hfs hne hpaths hnd hmem
    generalize listing es = l at hrel he
    induction hrel with
    | nil => cases he
    | cons h _ ih =>
      rcases List.mem_cons.mp he with rfl | he
      · exact ⟨_, by simp, h.2.1⟩
      · obtain ⟨f, hf, h⟩ := ih he
        exact ⟨f, by simp [hf], h⟩
  have hfind : ∀ f ∈ fs, fs.reverse.find? (fun g => g.relativePath = f.relativePath) = some f := by
    intro f hf
    cases hg : fs.reverse.find? (fun g => g.relativePath = f.relativePath) with
    | none =>
      rw [List.find?_eq_none] at hg
      exact absurd (decide_eq_true rfl) (hg f (by simpa using hf))
    | some g =>
      have h1 := List.find?_some hg
      have h2 : g ∈ fs := by simpa using List.mem_of_find?_eq_some hg
      simp only [decide_eq_true_eq] at h1
      rw [List.inj_on_of_nodup_map hnd h2 hf h1]
  refine ⟨fun ns c hin => ?_, fun p f hf => ?_, hnd, ⟨⟨_, _, hbuilt⟩, fun f hf => ?_⟩⟩
  · obtain ⟨f, hf, ho⟩ := hmem' (ns, c) ((mem_listing _ _ _).mpr hin)
    refine ⟨f, ?_, ho⟩
    have := hfind f hf
    rw [ho.1] at this
    simp only [Bucket.fileByPath, this]
  · simp only [Bucket.fileByPath] at hf
    split at hf
    · rename_i g hg
      cases hf
      have h1 := List.find?_some hg
      have h2 : f ∈ fs := by simpa using List.mem_of_find?_eq_some hg
      simp only [decide_eq_true_eq] at h1
      obtain ⟨e, -, h3, h4, -⟩ := hmem f h2
      rw [← h1, h4.1]
      exact ⟨e.1, e.2, h3, rfl, h4⟩
    · cases hf
  · exact (hmem f hf).choose_spec.2.2.2

/-! ## C84 -/

/-- C84: a chunk's hash binds its size and its data hash. -/
theorem C84_chunk_binding {n n' : UInt64} {d d' : Option Hash} {t t' : Time} {c c' : Chunk}
    (hc : chunkNow n d t = .ok c) (hc' : chunkNow n' d' t' = .ok c') (h : c.hash = c'.hash) :
    (c.sizeInBytes = c'.sizeInBytes ∧ c.data = c'.data) ∨
      ShaCollision (itoaU n ++ c.data.bytes) (itoaU n' ++ c'.data.bytes) := by
  obtain ⟨-, x, rfl, rfl⟩ := chunkNow_eq_ok.mp hc
  obtain ⟨-, x', rfl, rfl⟩ := chunkNow_eq_ok.mp hc'
  have l1 := itoaU_length n
  have l2 := itoaU_length n'
  simp only at h ⊢
  rcases fromBytes_eq_red (by rw [List.length_append, x.len]; omega)
    (by rw [List.length_append, x'.len]; omega) h with e | e
  · left
    obtain ⟨e1, e2⟩ := append_hash_inj e
    exact ⟨itoaU_injective e1, e2⟩
  · exact .inr e

/-- C84, negation: a file's hash does not bind its path and its chunks: moving the hash of the first
chunk into the path gives another file with the same hash. -/
theorem C84_file_boundary_ambiguous_neg {p : Bytes} {c : Chunk} {cs : List Chunk} {t : Time}
    (hcs : cs ≠ []) {f : BFile} (hf : bfileNow p (some (c :: cs)) t = .ok f) :
    ∃ f', bfileNow (p ++ c.hash.bytes) (some cs) t = .ok f' ∧ f'.hash = f.hash ∧
      f'.relativePath ≠ f.relativePath ∧ f'.chunks ≠ f.chunks := by
  obtain ⟨hp, l, e, -, rfl⟩ := bfileNow_eq_ok.mp hf
  cases e
  have hlen := c.hash.len
  refine ⟨_, bfileNow_eq_ok.mpr ⟨by simp [hp], cs, rfl, hcs, rfl⟩, ?_, ?_, ?_⟩
  · simp
  · intro h
    have := congrArg List.length h
    simp only [List.length_append] at this
    omega
  · intro h
    have := congrArg List.length h
    simp at this

/-- C84, what does hold: a file's hash binds its path and the hashes of its chunks among files with
equally many chunks. Missing: files with different numbers of chunks
(`C84_file_boundary_ambiguous_neg`). -/
theorem C84_file_binding_partial {p p' : Bytes} {cs cs' : Option (List Chunk)} {t t' : Time}
    {f f' : BFile} (hf : bfileNow p cs t = .ok f) (hf' : bfileNow p' cs' t' = .ok f')
    (hlen : f.chunks.length = f'.chunks.length) (h : f.hash = f'.hash) :
    (f.relativePath = f'.relativePath ∧ f.chunks.map Chunk.hash = f'.chunks.map Chunk.hash) ∨
      ShaCollision (p ++ (f.chunks.map fun c => c.hash.bytes).flatten)
        (p' ++ (f'.chunks.map fun c => c.hash.bytes).flatten) := by
  obtain ⟨hp, l, rfl, hl, rfl⟩ := bfileNow_eq_ok.mp hf
  obtain ⟨hp', l', rfl, hl', rfl⟩ := bfileNow_eq_ok.mp hf'
  have e1 : ∀ l : List Chunk, (l.map fun c => c.hash.bytes).flatten =
      hashesBytes (l.map Chunk.hash) := by
    intro l; simp [hashesBytes, Function.comp_def]
  simp only [e1] at h hlen ⊢
  have b1 := List.length_pos_iff.mpr hp
  have b2 := List.length_pos_iff.mpr hp'
  have b3 := List.length_pos_iff.mpr hl
  rcases fromBytes_eq_red (by rw [List.length_append, hashesBytes_length, List.length_map]; omega)
    (by rw [List.length_append, hashesBytes_length, List.length_map]; omega) h with e | e
  · left
    obtain ⟨x, y⟩ := List.append_inj' e (by simp [hashesBytes_length, hlen])
    exact ⟨x, hashesBytes_injective y⟩
  · exact .inr e

/-- C84: a bucket's hash binds the hashes of its files and their order, unless two hashed byte
strings collide or a file's hash is itself the SHA-512 value of the other's file hashes. -/
theorem C84_bucket_binding {fs fs' : Option (List BFile)} {t t' : Time} {b b' : Bucket}
    (hb : bucketNow fs t = .ok b) (hb' : bucketNow fs' t' = .ok b') (h : b.hash = b'.hash) :
    b.files.map BFile.hash = b'.files.map BFile.hash ∨
      ∃ x y, (x = (b.files.map fun f => f.hash.bytes).flatten ∧
          y = (b'.files.map fun f => f.hash.bytes).flatten ∨
        y = (b.files.map fun f => f.hash.bytes).flatten ∧
          x = (b'.files.map fun f => f.hash.bytes).flatten) ∧
        (ShaCollision x y ∨ ShaPassThrough x y) := by
  obtain ⟨l, rfl, hl, rfl⟩ := bucketNow_eq_ok.mp hb
  obtain ⟨l', rfl, hl', rfl⟩ := bucketNow_eq_ok.mp hb'
  have e1 : ∀ l : List BFile, (l.map fun c => c.hash.bytes).flatten =
      hashesBytes (l.map BFile.hash) := by
    intro l; simp [hashesBytes, Function.comp_def]
  simp only [e1] at h ⊢
  rcases fromBytes_eq_red' h with e | e | e | e
  · exact .inl (hashesBytes_injective e)
  · exact .inr ⟨_, _, .inl ⟨rfl, rfl⟩, .inl e⟩
  · exact .inr ⟨_, _, .inl ⟨rfl, rfl⟩, .inr e⟩
  · exact .inr ⟨_, _, .inr ⟨rfl, rfl⟩, .inr e⟩

/-- C84, negation: the hash of a bucket with one file is that file's hash, so it does not tell a
bucket from a file. -/
theorem C84_single_file_bucket_neg (f : BFile) (t : Time) :
    ∃ b, bucketNow (some [f]) t = .ok b ∧ b.hash = f.hash := by
  refine ⟨_, bucketNow_eq_ok.mpr ⟨[f], rfl, by simp, rfl⟩, ?_⟩
  simp

/-! ## C62 -/

omit [Sha512] in
theorem Shelf.get_set (s : Shelf) (n c : Bytes) : (s.set n c).get n = .ok c := by
  simp [Shelf.get, Shelf.set]

theorem Chunk.Built.toTransfer {c : Chunk} (h : c.Built) :
    c.toTransfer = .ok ⟨some ⟨c.hash, c.createdOn⟩, c.sizeInBytes, c.data⟩ := by
  obtain ⟨n, d, t, h⟩ := h
  obtain ⟨hn, x, -, rfl⟩ := chunkNow_eq_ok.mp h
  simp [Chunk.toTransfer, trChunkNow, UInt64.not_le.mpr hn]

/-- Whatever is in the store, retrieving a chunk never succeeds: either there is no (readable) file,
an error, or it panics. -/
theorem retrChunk_never_ok (s : Shelf) (h : Hash) :
    (∃ e, retrChunk s h = .err e) ∨ retrChunk s h = .crash .nilDeref := by
  unfold retrChunk Shelf.get
  cases s h.str with
  | none => exact .inl ⟨_, rfl⟩
  | some js =>
    simp only [Outcome.bind_ok, trChunkFromText]
    split
    · exact .inr rfl
    · exact .inl ⟨_, rfl⟩

theorem saveChunk_cases (s : Shelf) {c : Chunk} (hc : c.Built) :
    saveChunk s c = .ok (s.set c.hash.str opaqueJSON) ∨ saveChunk s c = .crash .nilDeref := by
  unfold saveChunk
  rcases retrChunk_never_ok s c.hash with ⟨e, h⟩ | h
  · rw [h, hc.toTransfer]; exact .inl rfl
  · rw [h]; exact .inr rfl

theorem saveChunks_cases : ∀ {l : List Chunk} (_ : ∀ c ∈ l, c.Built) (s : Shelf),
    (∃ s', saveChunks s l = .ok s') ∨ saveChunks s l = .crash .nilDeref
  | [], _, s => .inl ⟨s, rfl⟩
  | c :: l, h, s => by
    unfold saveChunks
    rcases saveChunk_cases s (h c (by simp)) with e | e
    · rw [e, Outcome.bind_ok]
      exact saveChunks_cases (fun x hx => h x (by simp [hx])) _
    · rw [e]; exact .inr rfl

theorem deleteChunk_eq (s : Shelf) {c : Chunk} (hc : c.Built) : deleteChunk s c = s.del c.hash.str := by
  unfold deleteChunk
  rw [hc.toTransfer]
  rfl

/-- C62: deleting a list of chunks succeeds exactly when all of them are stored and none occurs twice in the
list (a file with two equal pieces, made at the same time, is such a list); then exactly their files are
gone. -/
theorem C62_delete_all_chunks : ∀ {l : List Chunk} (_ : ∀ c ∈ l, c.Built) (s : Shelf),
    ((∃ s', deleteChunks s l = .ok s') ↔
      (l.map fun c => c.hash.str).Nodup ∧ ∀ c ∈ l, s c.hash.str ≠ none) ∧
    ∀ s', deleteChunks s l = .ok s' → ∀ n, s' n = if n ∈ l.map fun c => c.hash.str then none else s n
  | [], _, s => by simp [deleteChunks]
  | c :: l, h, s => by
    have hc := deleteChunk_eq s (h c (by simp))
    rw [show deleteChunks s (c :: l) = (deleteChunk s c).bind fun s => deleteChunks s l from rfl, hc,
      Shelf.del]
    cases e : s c.hash.str with
    | none => simp [Outcome.bind, e]
    | some x =>
      obtain ⟨h1, h2⟩ := C62_delete_all_chunks (l := l) (fun x hx => h x (by simp [hx]))
        (fun n => if n = c.hash.str then none else s n)
      simp only [Outcome.bind]
      constructor
      · rw [h1]
        simp only [List.map_cons, List.nodup_cons, List.mem_map, List.mem_cons, forall_eq_or_imp, e]
        constructor
        · rintro ⟨a, b⟩
          refine ⟨⟨?_, a⟩, by simp, fun y hy => ?_⟩
          · rintro ⟨y, hy, hyc⟩
            exact b y hy (by simp [hyc])
          · have := b y hy
            intro hn
            exact this (by simp [hn])
        · rintro ⟨⟨a, b⟩, -, d⟩
          refine ⟨b, fun y hy => ?_⟩
          rw [if_neg fun hyc => a ⟨y, hy, hyc⟩]
          exact d y hy
      · intro s' hs' n
        rw [h2 s' hs' n]
        by_cases hn : n = c.hash.str
        · simp [hn]
        · simp [hn]

/-- C62: saving a list of chunks succeeds exactly when none of them occurs twice in the list and none of
their files contains an object or `null` (as every file of a saved chunk does); otherwise the process
panics. When it succeeds, exactly their files contain `{}`. -/
theorem C62_save_all_chunks_neg : ∀ {l : List Chunk} (_ : ∀ c ∈ l, c.Built) (s : Shelf),
    ((∃ s', saveChunks s l = .ok s') ↔ (l.map fun c => c.hash.str).Nodup ∧
      ∀ c ∈ l, ∀ js, s c.hash.str = some js → jsonAccepts js = false) ∧
    ((¬∃ s', saveChunks s l = .ok s') → saveChunks s l = .crash .nilDeref) ∧
    ∀ s', saveChunks s l = .ok s' → ∀ n, s' n = if n ∈ l.map fun c => c.hash.str then some opaqueJSON else s n
  | [], _, s => by simp [saveChunks]
  | c :: l, h, s => by
    rw [show saveChunks s (c :: l) = (saveChunk s c).bind fun s => saveChunks s l from rfl]
    have hcase : (saveChunk s c = .ok (s.set c.hash.str opaqueJSON) ∧
          ∀ js, s c.hash.str = some js → jsonAccepts js = false) ∨
        (saveChunk s c = .crash .nilDeref ∧ ∃ js, s c.hash.str = some js ∧ jsonAccepts js = true) := by
      have hr : retrChunk s c.hash = match s c.hash.str with
          | none => .err "no such file or directory"
          | some js => if jsonAccepts js then .crash .nilDeref else .err "json" := by
        unfold retrChunk Shelf.get
        cases s c.hash.str with
        | none => rfl
        | some js =>
          simp only [Outcome.bind_ok, trChunkFromText]
          split <;> rfl
      unfold saveChunk
      rw [hr]
      cases e : s c.hash.str with
      | none => exact .inl ⟨by simp only [(h c (by simp)).toTransfer]; rfl, by simp⟩
      | some js =>
        by_cases hj : jsonAccepts js = true
        · exact .inr ⟨by simp only [hj, if_true], js, rfl, hj⟩
        · refine .inl ⟨by simp only [if_neg hj, (h c (by simp)).toTransfer]; rfl, ?_⟩
          intro js' e'
          cases e'
          simpa using hj
    rcases hcase with ⟨e, hc⟩ | ⟨e, js, hs, hj⟩
    · obtain ⟨h1, h2, h3⟩ := C62_save_all_chunks_neg (l := l) (fun x hx => h x (by simp [hx]))
        (s.set c.hash.str opaqueJSON)
      rw [e]
      simp only [Outcome.bind]
      refine ⟨?_, h2, ?_⟩
      · rw [h1]
        simp only [List.map_cons, List.nodup_cons, List.mem_map, List.mem_cons, forall_eq_or_imp]
        constructor
        · rintro ⟨a, b⟩
          have hne : ∀ y ∈ l, y.hash.str ≠ c.hash.str := by
            intro y hy hyc
            have := b y hy opaqueJSON (by simp [Shelf.set, hyc])
            rw [jsonAccepts_empty] at this
            cases this
          refine ⟨⟨?_, a⟩, hc, fun y hy js hjs => b y hy js ?_⟩
          · rintro ⟨y, hy, hyc⟩
            exact hne y hy hyc
          · simpa [Shelf.set, hne y hy] using hjs
        · rintro ⟨⟨a, b⟩, -, d⟩
          refine ⟨b, fun y hy js hjs => d y hy js ?_⟩
          simpa [Shelf.set, show y.hash.str ≠ c.hash.str from fun hyc => a ⟨y, hy, hyc⟩] using hjs
      · intro s' hs' n
        rw [h3 s' hs' n]
        by_cases hn : n = c.hash.str
        · simp [hn, Shelf.set]
        · simp [hn, Shelf.set]
    · rw [e]
      refine ⟨iff_of_false (fun ⟨s', h⟩ => by cases h) ?_, fun _ => rfl, fun s' h => by cases h⟩
      rintro ⟨-, b⟩
      rw [b c (by simp) js hs] at hj
      cases hj

theorem BFile.Built.toTransfer {f : BFile} (h : f.Built) (hlen : f.chunks.length < 2 ^ 63) :
    f.toTransfer = .crash .nilDeref := by
  obtain ⟨⟨p, cs, t, h⟩, -⟩ := h
  obtain ⟨hp, l, -, hl, rfl⟩ := bfileNow_eq_ok.mp h
  simp only at hlen
  unfold BFile.toTransfer
  obtain ⟨ht, k, -, h1, -, h2, h3, -⟩ := C05_tree_shape (l.map fun c => c.hash.bytes) (by simpa using hl) none
  rw [List.length_map] at h3
  have b := List.length_pos_iff.mpr hl
  have hn : (UInt64.ofNat l.length).toNat = l.length := by
    rw [UInt64.toNat_ofNat']
    exact Nat.mod_eq_of_lt (by norm_num at hlen ⊢; omega)
  have c1 : ¬ UInt64.ofNat l.length ≤ 0 := by
    rw [UInt64.le_iff_toNat_le, hn]; simp; exact hl
  have c2 : ¬ (ht.length : Int) < toInt (UInt64.ofNat l.length) := by
    rw [toInt_of_lt (by rw [hn]; exact hlen), hn]
    omega
  simp only [h1, Outcome.bind_ok, trFileNow, if_neg hp, if_neg c1, if_neg c2]

omit [Sha512] in
/-- C62, negation: what the adapters of the transfer objects read is empty. Whatever the text, a chunk that is
read has no hash, no size and a data hash of zeros only, a file has no hash, no path and no chunks, and a
bucket has no hash and no files; the text that is written for any object, `{}`, is read in this way. -/
theorem C62_read_objects_empty_neg (js : Bytes) :
    (∀ c, trChunkFromText js = .ok c →
      c.immutable = none ∧ c.sizeInBytes = 0 ∧ ∀ b ∈ c.data.bytes, b = 0) ∧
    (∀ f, trFileFromText js = .ok f →
      f.immutable = none ∧ f.relativePath = [] ∧ f.chunks = none ∧ f.amount = 0) ∧
    (∀ b, trBucketFromText js = .ok b → b.immutable = none ∧ b.files = none ∧ b.amount = 0) ∧
    (js = [123, 125] → (∃ c, trChunkFromText js = .ok c) ∧ (∃ f, trFileFromText js = .ok f) ∧
      ∃ b, trBucketFromText js = .ok b) := by
  refine ⟨fun c h => ?_, fun f h => ?_, fun b h => ?_, fun h => ?_⟩
  · unfold trChunkFromText at h
    split at h
    · cases h
      refine ⟨rfl, rfl, fun b hb => ?_⟩
      exact List.eq_of_mem_replicate (show b ∈ List.replicate 64 0 from hb)
    · cases h
  · unfold trFileFromText at h
    split at h
    · cases h; exact ⟨rfl, rfl, rfl, rfl⟩
    · cases h
  · unfold trBucketFromText at h
    split at h
    · cases h; exact ⟨rfl, rfl, rfl⟩
    · cases h
  · have e : jsonAccepts js = true := h ▸ jsonAccepts_empty
    simp [trChunkFromText, trFileFromText, trBucketFromText, e]

/-- C62, negation: a chunk that was saved cannot be retrieved: every save of a chunk that returns
nil leaves a store on which retrieving the chunk, and saving it again, panics. -/
theorem C62_chunk_lost_neg (s s' : Shelf) {c : Chunk} (hc : c.Built) (h : saveChunk s c = .ok s') :
    retrChunk s' c.hash = .crash .nilDeref ∧ saveChunk s' c = .crash .nilDeref := by
  rcases saveChunk_cases s hc with e | e
  · rw [h] at e
    cases e
    have : retrChunk (s.set c.hash.str opaqueJSON) c.hash = .crash .nilDeref := by
      unfold retrChunk
      rw [Shelf.get_set]
      simp only [Outcome.bind_ok, trChunkFromText, jsonAccepts_empty, if_true]
      rfl
    exact ⟨this, by unfold saveChunk; rw [this]⟩
  · rw [h] at e; cases e

/-- C62, negation: a file can never be saved nor deleted: whatever the stores contain, both panic. -/
theorem C62_file_never_saved_neg (fs cs : Shelf) {f : BFile} (hf : f.Built)
    (hlen : f.chunks.length < 2 ^ 63) :
    saveFile fs cs f = .crash .nilDeref ∧ deleteFile fs f = .crash .nilDeref := by
  constructor
  · unfold saveFile
    have : (∃ e, retrFile fs cs f.hash = .err e) ∨ retrFile fs cs f.hash = .crash .nilDeref := by
      unfold retrFile Shelf.get
      cases fs f.hash.str with
      | none => exact .inl ⟨_, rfl⟩
      | some js =>
        simp only [Outcome.bind_ok, trFileFromText]
        split
        · exact .inr rfl
        · exact .inl ⟨_, rfl⟩
    rcases this with ⟨e, h⟩ | h
    · rw [h]
      rcases saveChunks_cases hf.2 cs with ⟨s', h'⟩ | h'
      · simp only [h', Outcome.bind_ok, hf.toTransfer hlen]; rfl
      · simp only [h']; rfl
    · rw [h]
  · unfold deleteFile
    rw [hf.toTransfer hlen]
    rfl

/-- C62, negation: a list of files can only be saved or deleted when it is empty; then nothing changes. -/
theorem C62_file_lists_neg (fs cs : Shelf) {l : List BFile} (hl : ∀ f ∈ l, f.Built)
    (hlen : ∀ f ∈ l, f.chunks.length < 2 ^ 63) :
    (l = [] → saveFiles fs cs l = .ok (fs, cs) ∧ deleteFiles fs l = .ok fs) ∧
    (l ≠ [] → saveFiles fs cs l = .crash .nilDeref ∧ deleteFiles fs l = .crash .nilDeref) := by
  constructor
  · rintro rfl
    exact ⟨rfl, rfl⟩
  · intro h
    cases l with
    | nil => exact absurd rfl h
    | cons f l =>
      obtain ⟨h1, h2⟩ := C62_file_never_saved_neg fs cs (hl f (by simp)) (hlen f (by simp))
      constructor
      · unfold saveFiles
        rw [h1]
        rfl
      · unfold deleteFiles
        rw [h2]
        rfl

/-- C62, negation: a bucket can never be saved nor deleted: whatever the stores contain, both
panic. -/
theorem C62_bucket_never_saved_neg (bs fs cs : Shelf) {b : Bucket} (hb : b.Built)
    (hlen : ∀ f ∈ b.files, f.chunks.length < 2 ^ 63) :
    saveBucket bs fs cs b = .crash .nilDeref ∧ deleteBucket bs fs b = .crash .nilDeref := by
  obtain ⟨⟨l, t, hb⟩, hfs⟩ := hb
  obtain ⟨l, -, hl, rfl⟩ := bucketNow_eq_ok.mp hb
  simp only at hfs hlen
  cases l with
  | nil => exact absurd rfl hl
  | cons f l =>
    have hf := C62_file_never_saved_neg fs cs (hfs f (by simp)) (hlen f (by simp))
    constructor
    · unfold saveBucket
      generalize fromBytes (hashesBytes ((f :: l).map BFile.hash)) = h
      simp only
      have : (∃ e, retrBucket bs fs cs h = .err e) ∨ retrBucket bs fs cs h = .crash .nilDeref := by
        unfold retrBucket Shelf.get
        cases bs h.str with
        | none => exact .inl ⟨_, rfl⟩
        | some js =>
          simp only [Outcome.bind_ok, trBucketFromText]
          split
          · exact .inr rfl
          · exact .inl ⟨_, rfl⟩
      rcases this with ⟨e, h⟩ | h
      · simp only [h, saveFiles, hf.1]; rfl
      · simp only [h]
    · unfold deleteBucket
      simp only [deleteFiles, hf.2]
      rfl

/-- C62, negation: nothing is ever retrieved, whatever the stores contain: where there is no file, or one that
is neither an object nor `null`, the answer is an error, otherwise the process panics. Asking for several buckets
succeeds only when none is asked for. -/
theorem C62_nothing_retrieved_neg (bs fs cs : Shelf) (h : Hash) (hs : List Hash) :
    ((∃ js, cs h.str = some js ∧ jsonAccepts js = true) → retrChunk cs h = .crash .nilDeref) ∧
    ((∀ js, cs h.str = some js → jsonAccepts js = false) → ∃ e, retrChunk cs h = .err e) ∧
    ((∃ js, fs h.str = some js ∧ jsonAccepts js = true) → retrFile fs cs h = .crash .nilDeref) ∧
    ((∀ js, fs h.str = some js → jsonAccepts js = false) → ∃ e, retrFile fs cs h = .err e) ∧
    ((∃ js, bs h.str = some js ∧ jsonAccepts js = true) → retrBucket bs fs cs h = .crash .nilDeref) ∧
    ((∀ js, bs h.str = some js → jsonAccepts js = false) → ∃ e, retrBucket bs fs cs h = .err e) ∧
    ∀ l, retrBuckets bs fs cs hs = .ok l → hs = [] ∧ l = [] := by
  have key : ∀ h, ((∃ js, bs h.str = some js ∧ jsonAccepts js = true) →
      retrBucket bs fs cs h = .crash .nilDeref) ∧
      ((∀ js, bs h.str = some js → jsonAccepts js = false) → ∃ e, retrBucket bs fs cs h = .err e) := by
    intro h
    unfold retrBucket Shelf.get
    constructor
    · rintro ⟨js, e, ha⟩
      simp only [e, Outcome.bind_ok, trBucketFromText, ha, if_true]
      rfl
    · intro ha
      cases e : bs h.str with
      | none => exact ⟨_, rfl⟩
      | some js =>
        simp only [Outcome.bind_ok, trBucketFromText, ha js e]
        exact ⟨_, rfl⟩
  refine ⟨?_, ?_, ?_, ?_, (key h).1, (key h).2, ?_⟩
  · rintro ⟨js, e, ha⟩
    unfold retrChunk Shelf.get
    simp only [e, Outcome.bind_ok, trChunkFromText, ha, if_true]
    rfl
  · intro ha
    unfold retrChunk Shelf.get
    cases e : cs h.str with
    | none => exact ⟨_, rfl⟩
    | some js =>
      simp only [Outcome.bind_ok, trChunkFromText, ha js e]
      exact ⟨_, rfl⟩
  · rintro ⟨js, e, ha⟩
    unfold retrFile Shelf.get
    simp only [e, Outcome.bind_ok, trFileFromText, ha, if_true]
    rfl
  · intro ha
    unfold retrFile Shelf.get
    cases e : fs h.str with
    | none => exact ⟨_, rfl⟩
    | some js =>
      simp only [Outcome.bind_ok, trFileFromText, ha js e]
      exact ⟨_, rfl⟩
  · intro l hl
    cases hs with
    | nil => cases hl; exact ⟨rfl, rfl⟩
    | cons x hs =>
      exfalso
      unfold retrBuckets mapO at hl
      by_cases ha : ∃ js, bs x.str = some js ∧ jsonAccepts js = true
      · rw [(key x).1 ha] at hl; cases hl
      · obtain ⟨e, he⟩ := (key x).2 fun js hjs => by
          cases hj : jsonAccepts js with
          | false => rfl
          | true => exact absurd ⟨js, hjs, hj⟩ ha
        rw [he] at hl; cases hl

/-- C62, what does hold: raw data does survive. After data was saved and any other data were saved,
retrieving by its hash returns the data, or other data saved later with the same hash. Missing:
chunks, files and buckets themselves, see the negations above. -/
theorem C62_data_survives_partial (s : Shelf) (data : Bytes) (later : List Bytes) :
    ∃ d, retrData (later.foldl saveData (saveData s data)) (fromBytes data) = .ok d ∧
      fromBytes d = fromBytes data ∧ (d = data ∨ d ∈ later) := by
  have key : ∀ (later : List Bytes) (s : Shelf) (d : Bytes), s (fromBytes data).str = some d →
      fromBytes d = fromBytes data → ∃ d', (later.foldl saveData s) (fromBytes data).str = some d' ∧
        fromBytes d' = fromBytes data ∧ (d' = d ∨ d' ∈ later) := by
    intro later
    induction later with
    | nil => intro s d h1 h2; exact ⟨d, h1, h2, .inl rfl⟩
    | cons x later ih =>
      intro s d h1 h2
      by_cases hx : fromBytes x = fromBytes data
      · obtain ⟨d', h3, h4, h5⟩ := ih (saveData s x) x (by simp [saveData, Shelf.set, hx]) hx
        refine ⟨d', h3, h4, .inr ?_⟩
        rcases h5 with rfl | h5
        · simp
        · simp [h5]
      · obtain ⟨d', h3, h4, h5⟩ := ih (saveData s x) d (by
          simp only [saveData, Shelf.set]
          rw [if_neg fun e => hx (Hash.str_injective e).symm]
          exact h1) h2
        exact ⟨d', h3, h4, h5.imp_right fun h => by simp [h]⟩
  obtain ⟨d, h1, h2, h3⟩ := key later (saveData s data) data (by simp [saveData, Shelf.set]) rfl
  exact ⟨d, by simp [retrData, Shelf.get, h1], h2, h3⟩

private theorem DataOp.run_at (s : Shelf) (o : DataOp) (h : Hash) :
    o.run s h.str = if o.about = h then (match o with | .save d => some d | .delete _ => none) else s h.str := by
  cases o with
  | save d =>
    by_cases e : fromBytes d = h
    · simp [DataOp.run, saveData, Shelf.set, DataOp.about, e]
    · rw [if_neg (show (DataOp.save d).about ≠ h from e)]
      exact if_neg fun e' => e (Hash.str_injective e').symm
  | delete k =>
    simp only [DataOp.run, deleteData, Shelf.del, DataOp.about]
    by_cases e : k = h
    · subst e
      cases hs : s k.str <;> simp [hs]
    · cases hs : s k.str with
      | none => simp [e]
      | some d => simp only [e, if_false]; rw [if_neg fun e' => e (Hash.str_injective e').symm]

/-- C62, what does hold of raw data, exactly: after any history of saves and deletions, failed deletions
included, retrieving a hash returns the data of the last save with that hash, if no deletion came behind it,
and an error otherwise; and a deletion succeeds if and only if the data could be retrieved. -/
theorem C62_data_history_partial (ops : List DataOp) (h : Hash) :
    (∀ d, retrData (DataOp.runs ops) h = .ok d ↔ ∃ before after, ops = before ++ .save d :: after ∧
      fromBytes d = h ∧ ∀ o ∈ after, o.about ≠ h) ∧
    ((¬∃ d, retrData (DataOp.runs ops) h = .ok d) → ∃ e, retrData (DataOp.runs ops) h = .err e) ∧
    ((∃ s, deleteData (DataOp.runs ops) h = .ok s) ↔ ∃ d, retrData (DataOp.runs ops) h = .ok d) ∧
    ((¬∃ s, deleteData (DataOp.runs ops) h = .ok s) → ∃ e, deleteData (DataOp.runs ops) h = .err e) := by
  have hr : ∀ (s : Shelf) d, retrData s h = .ok d ↔ s h.str = some d := by
    intro s d
    simp only [retrData, Shelf.get]
    split <;> simp_all
  refine ⟨fun d => ?_, ?_, ?_, ?_⟩
  · rw [hr]
    induction ops using List.reverseRecOn with
    | nil => simp [DataOp.runs]
    | append_singleton ops o ih =>
      simp only [DataOp.runs, List.foldl_append, List.foldl_cons, List.foldl_nil] at ih ⊢
      rw [DataOp.run_at]
      split
      · rename_i ho
        constructor
        · intro e
          cases o with
          | save d' => cases e; exact ⟨ops, [], rfl, ho, by simp⟩
          | delete k => cases e
        · rintro ⟨before, after, e, hd, ha⟩
          rcases List.eq_nil_or_concat after with rfl | ⟨after', o', rfl⟩
          · obtain ⟨-, e⟩ := List.append_inj' e rfl
            cases e
            rfl
          · rw [List.concat_eq_append, ← List.cons_append, ← List.append_assoc] at e
            obtain ⟨-, e⟩ := List.append_inj' e rfl
            cases e
            exact absurd ho (ha o (by simp))
      · rename_i ho
        rw [ih]
        constructor
        · rintro ⟨before, after, rfl, hd, ha⟩
          refine ⟨before, after ++ [o], by simp, hd, fun x hx => ?_⟩
          rcases List.mem_append.mp hx with hx | hx
          · exact ha x hx
          · rw [List.mem_singleton.mp hx]; exact ho
        · rintro ⟨before, after, e, hd, ha⟩
          rcases List.eq_nil_or_concat after with rfl | ⟨after', o', rfl⟩
          · obtain ⟨-, e⟩ := List.append_inj' e rfl
            cases e
            exact absurd hd ho
          · rw [List.concat_eq_append, ← List.cons_append, ← List.append_assoc] at e
            obtain ⟨e, -⟩ := List.append_inj' e rfl
            exact ⟨before, after', e, hd, fun x hx => ha x (by simp [hx])⟩
  · simp only [retrData, Shelf.get]
    split <;> simp
  · simp only [hr, deleteData, Shelf.del]
    split <;> simp_all
  · simp only [deleteData, Shelf.del]
    split <;> simp

end

/-! ## C94 -/

/-- C94: `ChunkByHash` finds a chunk exactly when the file has one with that hash, and what it finds is
a chunk of the file with that hash. -/
theorem C94_chunk_by_hash (f : BFile) (h : Hash) :
    (∀ c, f.chunkByHash h = .ok c → c ∈ f.chunks ∧ c.hash = h) ∧
    ((∃ c, f.chunkByHash h = .ok c) ↔ ∃ c ∈ f.chunks, c.hash = h) := by
  unfold BFile.chunkByHash
  cases e : f.chunks.reverse.find? fun c => c.hash.str = h.str with
  | none =>
    rw [List.find?_eq_none] at e
    refine ⟨by simp, by simp, ?_⟩
    rintro ⟨c, hc, rfl⟩
    have := e c (by simpa using hc)
    simp at this
  | some c =>
    have h1 := List.mem_of_find?_eq_some e
    have h2 := List.find?_some e
    simp only [decide_eq_true_eq] at h2
    have h3 := Hash.str_injective h2
    refine ⟨fun c' hc' => ?_, fun _ => ⟨c, by simpa using h1, h3⟩, fun _ => ⟨c, rfl⟩⟩
    cases hc'
    exact ⟨by simpa using h1, h3⟩

/-- C94: `ChunkByHash` finds the last chunk of the file with that hash. -/
theorem C94_chunk_by_hash_last (f : BFile) (h : Hash) (c : Chunk) :
    f.chunkByHash h = .ok c ↔ ∃ before after, f.chunks = before ++ c :: after ∧ c.hash = h ∧
      ∀ d ∈ after, d.hash ≠ h := by
  have hs : ∀ c : Chunk, c.hash.str = h.str ↔ c.hash = h :=
    fun c => ⟨fun e => Hash.str_injective e, fun e => by rw [e]⟩
  unfold BFile.chunkByHash
  simp only [hs]
  constructor
  · intro e
    split at e <;> cases e
    rename_i e
    rw [List.find?_eq_some_iff_append] at e
    obtain ⟨h1, l, r, h2, h3⟩ := e
    refine ⟨r.reverse, l.reverse, by simpa using congrArg List.reverse h2, by simpa using h1, fun d hd => ?_⟩
    simpa using h3 d (by simpa using hd)
  · rintro ⟨l, r, h1, h2, h3⟩
    have : f.chunks.reverse.find? (fun c => decide (c.hash = h)) = some c := by
      rw [List.find?_eq_some_iff_append]
      refine ⟨by simpa using h2, r.reverse, l.reverse, by simp [h1], fun d hd => ?_⟩
      simpa using h3 d (by simpa using hd)
    rw [this]

/-- C94: among chunks of a file with the same hash the content is the same, unless the texts of these two
chunks collide; so it does not matter which one `ChunkByHash` finds. -/
theorem C94_chunk_by_hash_content [Sha512] {f : BFile} {h : Hash} {c c' : Chunk}
    (hb : ∀ c ∈ f.chunks, c.Built) (hc : f.chunkByHash h = .ok c) (hm : c' ∈ f.chunks)
    (hh : c'.hash = h) :
    (c.sizeInBytes = c'.sizeInBytes ∧ c.data = c'.data) ∨
      ShaCollision (itoaU c.sizeInBytes ++ c.data.bytes) (itoaU c'.sizeInBytes ++ c'.data.bytes) := by
  obtain ⟨h1, h2⟩ := (C94_chunk_by_hash f h).1 c hc
  obtain ⟨_, _, _, b1⟩ := hb c h1
  obtain ⟨_, _, _, b2⟩ := hb c' hm
  have := C84_chunk_binding b1 b2 (h2.trans hh.symm)
  obtain ⟨-, _, -, rfl⟩ := chunkNow_eq_ok.mp b1
  obtain ⟨-, _, -, rfl⟩ := chunkNow_eq_ok.mp b2
  exact this

/-- C94: `FileByPath` finds a file exactly when the bucket has one under that path, and what it finds
is the last such file of the bucket. -/
theorem C94_file_by_path (b : Bucket) (p : Bytes) (f : BFile) :
    b.fileByPath p = .ok f ↔ ∃ before after, b.files = before ++ f :: after ∧ f.relativePath = p ∧
      ∀ g ∈ after, g.relativePath ≠ p := by
  unfold Bucket.fileByPath
  cases e : b.files.reverse.find? fun f => f.relativePath = p with
  | none =>
    rw [List.find?_eq_none] at e
    simp only [reduceCtorEq, false_iff]
    rintro ⟨l, r, h1, h2, -⟩
    have := e f (by simp [h1])
    simp [h2] at this
  | some g =>
    rw [List.find?_eq_some_iff_append] at e
    obtain ⟨h1, l, r, h2, h3⟩ := e
    simp only [decide_eq_true_eq] at h1
    have h4 : b.files = r.reverse ++ g :: l.reverse := by
      have := congrArg List.reverse h2
      simpa using this
    constructor
    · intro h
      cases h
      exact ⟨_, _, h4, h1, fun x hx => by simpa using h3 x (by simpa using hx)⟩
    · rintro ⟨bf, af, h5, h6, h7⟩
      suffices h : g = f by rw [h]
      rw [h4] at h5
      rcases List.append_eq_append_iff.mp h5 with ⟨a, ha, hb⟩ | ⟨a, ha, hb⟩
      · cases a with
        | nil => simp at hb; exact hb.1
        | cons x xs =>
          simp only [List.cons_append, List.cons.injEq] at hb
          have : f ∈ l.reverse := by rw [hb.2]; simp
          have := h3 f (by simpa using this)
          simp [h6] at this
      · cases a with
        | nil => simp at hb; exact hb.1.symm
        | cons x xs =>
          simp only [List.cons_append, List.cons.injEq] at hb
          have : g ∈ af := by rw [hb.2]; simp
          exact absurd h1 (h7 g this)

section examples

attribute [local instance] toySha

/-- The directory with the file `a` containing 5 bytes and the directory `d` with the file `e`
containing 2 bytes. -/
def exTree : List (Bytes × Tree) :=
  [([97], .file [1, 2, 3, 4, 5]), ([100], .dir [([101], .file [6, 7])])]

theorem exTree_tidy : Tidy exTree := by
  refine .file (by simp [ProperName]) (by simp) (.dir (by simp [ProperName]) (by simp) ?_ .nil)
  exact .file (by simp [ProperName]) (by simp) .nil

/-- C83: with chunks of 2 bytes, `d/e` is in the tree and everything is long enough. -/
example : Tidy exTree ∧ InTree exTree [[100], [101]] [6, 7] ∧
    (∀ ns c, InTree exTree ns c → 2 ≤ c.length ∧ c.length < 2 ^ 63) := by
  refine ⟨exTree_tidy, .inside (sub := [([101], .file [6, 7])]) (by simp [exTree]) (.here (by simp)), fun ns c h => ?_⟩
  rw [← mem_listing] at h
  simp [exTree, listing] at h
  rcases h with ⟨-, rfl⟩ | ⟨-, rfl⟩ <;> simp

/-- C56: 5 bytes with chunks of 2 bytes: parts of 2 and 3 bytes. -/
example : slices [1, 2, 3, 4, 5] 2 = [[1, 2], [3, 4, 5]] := rfl

/-- C56: 1 byte with chunks of 2 bytes. -/
example : ([1] : Bytes).length < 2 := by decide

/-- C84: two chunks of a file. -/
example : ∃ c f, chunkNow 2 (some zeroHash) 0 = .ok c ∧ bfileNow [97] (some [c, c]) 0 = .ok f := by
  refine ⟨_, _, rfl, rfl⟩

/-- C62: data that were saved, deleted and saved again, while others were deleted. -/
example : retrData (DataOp.runs [.save [1], .delete (fromBytes [1]), .save [1], .delete (fromBytes [2])])
    (fromBytes [1]) = .ok [1] := by
  refine ((C62_data_history_partial _ _).1 _).mpr
    ⟨[.save [1], .delete (fromBytes [1])], [.delete (fromBytes [2])], rfl, rfl, ?_⟩
  simp only [List.mem_singleton, forall_eq, DataOp.about]
  decide +kernel

/-- C62: a stored chunk is deleted, but not twice. -/
example : ∃ c, Chunk.Built c ∧ (∃ s', deleteChunks (fun _ => some []) [c] = .ok s') ∧
    (¬∃ s', deleteChunks (fun _ => some []) [c, c] = .ok s') ∧
    (∃ s', saveChunks (fun _ => none) [c] = .ok s') ∧ ¬∃ s', saveChunks (fun _ => none) [c, c] = .ok s' := by
  obtain ⟨c, hc⟩ : ∃ c, chunkNow 1 (some (fromBytes [1])) 0 = .ok c := ⟨_, rfl⟩
  have hb : c.Built := ⟨_, _, _, hc⟩
  refine ⟨c, hb, ?_, ?_, (C62_save_all_chunks_neg (by simpa using hb) _).1.mpr (by simp), ?_⟩
  rotate_left 2
  · rw [(C62_save_all_chunks_neg (by simpa using hb) _).1]
    simp
  · exact (C62_delete_all_chunks (by simpa using hb) _).1.mpr ⟨by simp, by simp⟩
  · rw [(C62_delete_all_chunks (by simpa using hb) _).1]
    simp

/-- C62: a chunk is built and saved to an empty store. -/
example : ∃ c s', Chunk.Built c ∧ saveChunk (fun _ => none) c = .ok s' := by
  refine ⟨⟨fromMultiBytes [itoaU 2, zeroHash.bytes], 2, zeroHash, 0⟩, _, ⟨2, some zeroHash, 0, rfl⟩, rfl⟩

/-- C62: a bucket of one file of one chunk. -/
example : ∃ b, Bucket.Built b ∧ ∀ f ∈ b.files, f.chunks.length < 2 ^ 63 := by
  obtain ⟨c, hc⟩ : ∃ c, chunkNow 2 (some zeroHash) 0 = .ok c := ⟨_, rfl⟩
  obtain ⟨f, hf⟩ : ∃ f, bfileNow [97] (some [c]) 0 = .ok f := ⟨_, rfl⟩
  obtain ⟨b, hb⟩ : ∃ b, bucketNow (some [f]) 0 = .ok b := ⟨_, rfl⟩
  obtain ⟨-, l, e, -, hf'⟩ := bfileNow_eq_ok.mp hf
  obtain ⟨l', e', -, hb'⟩ := bucketNow_eq_ok.mp hb
  cases e; cases e'
  have h1 : f.chunks = [c] := by rw [hf']
  have h2 : b.files = [f] := by rw [hb']
  refine ⟨b, ⟨⟨_, _, hb⟩, fun f' hm => ?_⟩, fun f' hm => ?_⟩
  · rw [h2] at hm; simp at hm; subst hm
    exact ⟨⟨_, _, _, hf⟩, fun c' hc' => by rw [h1] at hc'; simp at hc'; subst hc'; exact ⟨_, _, _, hc⟩⟩
  · rw [h2] at hm; simp at hm; subst hm; rw [h1]; simp

/-- C94: a file with two chunks, found by their hashes. -/
example : ∃ c d f, chunkNow 2 (some zeroHash) 0 = .ok c ∧ chunkNow 3 (some zeroHash) 0 = .ok d ∧
    bfileNow [97] (some [c, d]) 0 = .ok f ∧ f.chunkByHash c.hash = .ok c ∧
    f.chunkByHash d.hash = .ok d := by
  refine ⟨_, _, _, rfl, rfl, rfl, by decide, by decide⟩

/-- C94: two files of the same path: the last one is found. -/
example (f g : BFile) (h' : g.relativePath = [97]) (x : Hash) :
    Bucket.fileByPath ⟨x, [f, g], 0⟩ [97] = .ok g :=
  (C94_file_by_path _ _ _).mpr ⟨[f], [], rfl, h', by simp⟩

end examples

end Verif
