import Verif.Spec.Files
import Verif.Props.Encryption

/-!
# File stores: C52, C55, C81, C82
-/

namespace Verif

namespace Disk

theorem at?_nil (d : Disk) : d.at? [] = some .dir := by simp [at?]

theorem at?_put (d : Disk) {p : Path} (hp : p ≠ []) (n : Node) (q : Path) :
    (d.put p n).at? q = if q = p then some n else d.at? q := by
  unfold at? put
  by_cases hq : q = []
  · subst hq
    rw [if_pos rfl, if_neg (Ne.symm hp), if_pos rfl]
  · rw [if_neg hq, if_neg hq]
    by_cases h : q = p
    · subst h; simp
    · rw [if_neg h, List.find?_cons_of_neg (by simp; exact Ne.symm h), List.find?_filter]
      congr 2
      funext e
      by_cases he : e.1 = q
      · simp [he, h]
      · simp [he]

theorem at?_drop (d : Disk) {p : Path} (hp : p ≠ []) (q : Path) :
    (d.drop p).at? q = if q = p then none else d.at? q := by
  unfold at? drop
  by_cases hq : q = []
  · subst hq
    rw [if_pos rfl, if_neg (Ne.symm hp), if_pos rfl]
  · rw [if_neg hq, if_neg hq]
    by_cases h : q = p
    · subst h; simp
    · rw [if_neg h, List.find?_filter]
      congr 2
      funext e
      by_cases he : e.1 = q
      · simp [he, h]
      · simp [he]

theorem mem_below {d : Disk} {p q : Path} :
    q ∈ d.below p ↔ q ≠ [] ∧ q.dropLast = p ∧ d.at? q ≠ none := by
  unfold below
  rw [List.mem_dedup, List.mem_filter]
  constructor
  · rintro ⟨-, h⟩; simpa using h
  · intro h
    refine ⟨?_, by simpa using h⟩
    have h2 := h.2.2
    unfold at? at h2
    rw [if_neg h.1] at h2
    cases hf : d.find? fun e => e.1 = q with
    | none => simp [hf] at h2
    | some e =>
      have := List.find?_some hf
      have hm := List.mem_of_find?_eq_some hf
      exact List.mem_map.mpr ⟨e, hm, by simpa using this⟩

theorem blocked_iff {d : Disk} {p : Path} :
    d.blocked p = true ↔ ∃ k < p.length, ∃ c, d.at? (p.take k) = some (.file c) := by
  unfold blocked
  rw [List.any_eq_true]
  constructor
  · rintro ⟨k, hk, h⟩
    split at h
    · rename_i c hc; exact ⟨k, List.mem_range.mp hk, c, hc⟩
    · cases h
  · rintro ⟨k, hk, c, hc⟩
    exact ⟨k, List.mem_range.mpr hk, by simp [hc]⟩

/-- In a sound file system everything above an entry is a directory. -/
theorem Sound.above {d : Disk} (h : d.Sound) {p : Path} (hp : d.at? p ≠ none) :
    ∀ k, k < p.length → d.at? (p.take k) = some .dir := by
  intro k hk
  induction hn : p.length - k using Nat.strong_induction_on generalizing k with
  | _ n ih =>
    by_cases h1 : k + 1 = p.length
    · have := h p (by rintro rfl; simp at hk) hp
      rw [List.dropLast_eq_take] at this
      rwa [show p.length - 1 = k by omega] at this
    · have h2 := ih (p.length - (k + 1)) (by omega) (k + 1) (by omega) rfl
      have := h (p.take (k + 1)) (by
        intro h
        have := congrArg List.length h
        simp at this
        rw [this] at hk
        simp at hk) (by rw [h2]; simp)
      rw [List.dropLast_eq_take, List.take_take, List.length_take] at this
      rwa [show min (min (k + 1) p.length - 1) (k + 1) = k by omega] at this

theorem Sound.not_blocked {d : Disk} (h : d.Sound) {p : Path} (hp : d.at? p ≠ none) :
    d.blocked p = false := by
  rw [Bool.eq_false_iff]
  intro hb
  obtain ⟨k, hk, c, hc⟩ := blocked_iff.mp hb
  rw [h.above hp k hk] at hc
  cases hc

theorem Sound.put {d : Disk} (h : d.Sound) {p : Path} (hp : p ≠ []) {n : Node}
    (hd : d.at? p.dropLast = some .dir) (hn : d.at? p = some .dir → n = .dir) :
    (d.put p n).Sound := by
  intro q hq hne
  rw [at?_put _ hp] at hne ⊢
  have key : q = p ∨ d.at? q ≠ none := by
    by_cases hqp : q = p
    · exact .inl hqp
    · rw [if_neg hqp] at hne; exact .inr hne
  have hdl : d.at? q.dropLast = some .dir := by
    rcases key with rfl | h'
    · exact hd
    · exact h q hq h'
  split
  · rename_i h'
    rw [h'] at hdl
    rw [hn hdl]
  · exact hdl

/-- What making directories does. -/
theorem mkdirAll_spec (rest : Path) : ∀ (d : Disk) (p : Path), d.Sound → d.at? p = some .dir →
    (d.mkdirAll p rest).Sound ∧
    (∀ q, (d.mkdirAll p rest).at? q = d.at? q ∨
      (d.at? q = none ∧ (d.mkdirAll p rest).at? q = some .dir ∧ q <+: p ++ rest)) ∧
    ((∀ k ≤ (p ++ rest).length, ∀ c, d.at? ((p ++ rest).take k) ≠ some (.file c)) →
      (d.mkdirAll p rest).at? (p ++ rest) = some .dir) := by
  induction rest with
  | nil =>
    intro d p h hp
    exact ⟨h, fun q => .inl rfl, fun _ => by simpa [mkdirAll] using hp⟩
  | cons name rest ih =>
    intro d p h hp
    have hne : p ++ [name] ≠ [] := by simp
    have hassoc : p ++ name :: rest = (p ++ [name]) ++ rest := by simp
    unfold mkdirAll
    split
    · rename_i hc
      rw [hassoc]
      exact ih d _ h hc
    · rename_i c hc
      refine ⟨h, fun q => .inl rfl, fun hk => ?_⟩
      exfalso
      refine hk (p.length + 1) (by simp) c ?_
      rw [hassoc, show p.length + 1 = (p ++ [name]).length by simp, List.take_left']
      · exact hc
      · rfl
    · rename_i hc
      have hs : (d.put (p ++ [name]) .dir).Sound := h.put hne (by simpa using hp) fun _ => rfl
      obtain ⟨i1, i2, i3⟩ := ih (d.put (p ++ [name]) .dir) (p ++ [name]) hs
        (by rw [at?_put _ hne]; simp)
      rw [hassoc]
      refine ⟨i1, fun q => ?_, fun hk => i3 fun k hk' c => ?_⟩
      · rcases i2 q with h1 | ⟨h1, h2, h3⟩
        · rw [at?_put _ hne] at h1
          by_cases hq : q = p ++ [name]
          · right
            rw [if_pos hq] at h1
            refine ⟨by rw [hq]; exact hc, h1, ?_⟩
            rw [hq]; exact List.prefix_append _ _
          · rw [if_neg hq] at h1; exact .inl h1
        · rw [at?_put _ hne] at h1
          split at h1
          · cases h1
          · exact .inr ⟨h1, h2, h3⟩
      · rw [at?_put _ hne]
        split
        · simp
        · exact hk k hk' c

end Disk

/-- The content of the regular file at a path. -/
def Disk.content (d : Disk) (p : Path) : Option Bytes :=
  match d.at? p with
  | some (.file c) => some c
  | _ => none

theorem diskRetrieve_iff {w : Place} {d : Disk} {rel c : Bytes} :
    diskRetrieve w d rel = .ok c ↔ d.content (w.resolve rel) = some c := by
  unfold diskRetrieve Disk.content
  split <;> simp_all

/-- A save on the disk: it fails exactly when the path is a directory or lies below a regular file,
and then changes nothing; otherwise exactly the content of that path changes. -/
theorem diskSave_spec (w : Place) {d : Disk} (hd : d.Sound) (rel c : Bytes) :
    (diskSave w d rel c).2.Sound ∧
    (((diskSave w d rel c).1 = .ok () ∧ d.at? (w.resolve rel) ≠ some .dir ∧
        d.blocked (w.resolve rel) = false ∧
        (diskSave w d rel c).2.at? (w.resolve rel) = some (.file c) ∧
        ∀ q, q ≠ w.resolve rel → (diskSave w d rel c).2.at? q = d.at? q ∨
          (d.at? q = none ∧ (diskSave w d rel c).2.at? q = some .dir ∧ q <+: w.resolve rel)) ∨
      ((∃ m, (diskSave w d rel c).1 = .err m) ∧ (diskSave w d rel c).2 = d ∧
        (d.at? (w.resolve rel) = some .dir ∨ d.blocked (w.resolve rel) = true))) := by
  unfold diskSave
  generalize w.resolve rel = p
  simp only
  cases hp : d.at? p with
  | some n =>
    have hm : d.missing p = false := by simp [Disk.missing, hp]
    rw [hm]
    simp only [Bool.false_eq_true, if_false, Disk.writeFile, hp]
    cases n with
    | dir => exact ⟨hd, .inr ⟨⟨_, rfl⟩, rfl, .inl rfl⟩⟩
    | file c' =>
      have hne : p ≠ [] := by rintro rfl; rw [Disk.at?_nil] at hp; cases hp
      refine ⟨hd.put hne (hd p hne (by rw [hp]; simp)) (by rw [hp]; simp), .inl ⟨rfl, by simp,
        hd.not_blocked (by rw [hp]; simp), by simp [Disk.at?_put _ hne], fun q hq => ?_⟩⟩
      left
      rw [Disk.at?_put _ hne, if_neg hq]
  | none =>
    have hne : p ≠ [] := by rintro rfl; rw [Disk.at?_nil] at hp; cases hp
    have hlen := List.length_pos_iff.mpr hne
    by_cases hb : d.blocked p = true
    · have hm : d.missing p = false := by simp [Disk.missing, hb]
      have hpar : d.at? p.dropLast ≠ some .dir := by
        intro h
        obtain ⟨k, hk, c', hc⟩ := Disk.blocked_iff.mp hb
        by_cases hk' : k = p.length - 1
        · rw [hk', ← List.dropLast_eq_take, h] at hc; cases hc
        · have := hd.above (p := p.dropLast) (by rw [h]; simp) k (by simp; omega)
          rw [List.dropLast_eq_take, List.take_take, show min k (p.length - 1) = k by omega, hc] at this
          cases this
      rw [hm]
      simp only [Bool.false_eq_true, if_false, Disk.writeFile, hp, if_neg hpar]
      exact ⟨hd, .inr ⟨⟨_, rfl⟩, trivial, .inr hb⟩⟩
    · rw [Bool.not_eq_true] at hb
      have hm : d.missing p = true := by simp [Disk.missing, hp, hb]
      obtain ⟨s1, s2, s3⟩ := Disk.mkdirAll_spec p.dropLast d [] hd (Disk.at?_nil d)
      simp only [List.nil_append] at s2 s3
      have s4 := s3 fun k hk c' h => by
        rw [List.length_dropLast] at hk
        rw [List.dropLast_eq_take, List.take_take, show min k (p.length - 1) = k by omega] at h
        have := Disk.blocked_iff.mpr ⟨k, by omega, c', h⟩
        rw [hb] at this; cases this
      rw [hm]
      simp only [if_true]
      have hp' : (d.mkdirAll [] p.dropLast).at? p = none := by
        rcases s2 p with h | ⟨-, -, h⟩
        · rw [h, hp]
        · have := h.length_le
          rw [List.length_dropLast] at this; omega
      simp only [Disk.writeFile, hp', s4, if_true]
      refine ⟨s1.put hne s4 (by rw [hp']; simp), .inl ⟨trivial, by simp, hb, by
        simp [Disk.at?_put _ hne], fun q hq => ?_⟩⟩
      rw [Disk.at?_put _ hne, if_neg hq]
      rcases s2 q with h | ⟨h1, h2, h3⟩
      · exact .inl h
      · exact .inr ⟨h1, h2, h3.trans (List.dropLast_prefix _)⟩

/-- A deletion on the disk: it fails exactly when there is nothing, or a directory that is not empty
(or the root), and then changes nothing; otherwise exactly that path disappears. -/
theorem diskDelete_spec (w : Place) {d : Disk} (hd : d.Sound) (rel : Bytes) :
    (diskDelete w d rel).2.Sound ∧
    (((diskDelete w d rel).1 = .ok () ∧
        ((∃ c, d.at? (w.resolve rel) = some (.file c)) ∨
          (d.at? (w.resolve rel) = some .dir ∧ w.resolve rel ≠ [] ∧
            ∀ q, q ≠ [] → q.dropLast = w.resolve rel → d.at? q = none)) ∧
        ∀ q, (diskDelete w d rel).2.at? q = if q = w.resolve rel then none else d.at? q) ∨
      ((∃ m, (diskDelete w d rel).1 = .err m) ∧ (diskDelete w d rel).2 = d ∧
        (d.at? (w.resolve rel) = none ∨ (d.at? (w.resolve rel) = some .dir ∧
          (w.resolve rel = [] ∨ ∃ q, q ≠ [] ∧ q.dropLast = w.resolve rel ∧ d.at? q ≠ none))))) := by
  unfold diskDelete
  generalize w.resolve rel = p
  simp only
  by_cases hm : d.missing p = true
  · rw [if_pos hm]
    have : d.at? p = none := by simp [Disk.missing] at hm; exact hm.1
    exact ⟨hd, .inr ⟨⟨_, rfl⟩, rfl, .inl this⟩⟩
  · rw [if_neg hm]
    unfold Disk.remove
    have snd : ∀ (hne : p ≠ []), (∀ q, q ≠ [] → q.dropLast = p → d.at? q = none) →
        (d.drop p).Sound := by
      intro hne hch q hq hq'
      rw [Disk.at?_drop _ hne] at hq' ⊢
      by_cases hqp : q = p
      · rw [if_pos hqp] at hq'; exact absurd rfl hq'
      · rw [if_neg hqp] at hq'
        have := hd q hq hq'
        split
        · rename_i h; exact absurd (hch q hq h) hq'
        · exact this
    cases hp : d.at? p with
    | none => exact ⟨hd, .inr ⟨⟨_, rfl⟩, rfl, .inl rfl⟩⟩
    | some n =>
      cases n with
      | file c =>
        have hne : p ≠ [] := by rintro rfl; rw [Disk.at?_nil] at hp; cases hp
        refine ⟨snd hne fun q hq hqp => ?_, .inl ⟨rfl, .inl ⟨c, rfl⟩, fun q => Disk.at?_drop d hne q⟩⟩
        by_contra h
        have := hd q hq h
        rw [hqp, hp] at this
        cases this
      | dir =>
        simp only
        by_cases hc : p = [] ∨ d.below p ≠ []
        · rw [if_pos hc]
          refine ⟨hd, .inr ⟨⟨_, rfl⟩, rfl, .inr ⟨trivial, hc.imp_right fun h => ?_⟩⟩⟩
          obtain ⟨q, hq⟩ := List.exists_mem_of_ne_nil _ h
          exact ⟨q, Disk.mem_below.mp hq⟩
        · rw [if_neg hc]
          push Not at hc
          have hch : ∀ q, q ≠ [] → q.dropLast = p → d.at? q = none := by
            intro q hq hqp
            by_contra h
            have := Disk.mem_below.mpr ⟨hq, hqp, h⟩
            rw [hc.2] at this
            cases this
          exact ⟨snd hc.1 hch, .inl ⟨rfl, .inr ⟨trivial, hc.1, hch⟩, fun q => Disk.at?_drop d hc.1 q⟩⟩

/-- What one call does to contents. -/
theorem diskStep_content (w : Place) {d : Disk} (hd : d.Sound) (op : FileOp) :
    (diskStep w d op).2.Sound ∧ ∀ p, (diskStep w d op).2.content p =
      if w.resolve op.rel = p ∧ (diskStep w d op).1 = .ok () then
        (match op with | .save _ c => some c | .delete _ => none)
      else d.content p := by
  cases op with
  | save r c =>
    obtain ⟨h1, h2⟩ := diskSave_spec w hd r c
    refine ⟨h1, fun p => ?_⟩
    show (diskSave w d r c).2.content p =
      if w.resolve r = p ∧ (diskSave w d r c).1 = .ok () then some c else d.content p
    rcases h2 with ⟨h3, -, -, h4, h5⟩ | ⟨⟨m, h3⟩, h4, -⟩
    · rw [h3]
      by_cases hp : w.resolve r = p
      · subst hp
        rw [if_pos ⟨rfl, rfl⟩, Disk.content, h4]
      · rw [if_neg fun h => hp h.1]
        unfold Disk.content
        rcases h5 p (Ne.symm hp) with h | ⟨h6, h7, -⟩
        · rw [h]
        · rw [h6, h7]
    · rw [h3, h4, if_neg (by simp)]
  | delete r =>
    obtain ⟨h1, h2⟩ := diskDelete_spec w hd r
    refine ⟨h1, fun p => ?_⟩
    show (diskDelete w d r).2.content p =
      if w.resolve r = p ∧ (diskDelete w d r).1 = .ok () then none else d.content p
    rcases h2 with ⟨h3, -, h4⟩ | ⟨⟨m, h3⟩, h4, -⟩
    · rw [h3, Disk.content, h4]
      by_cases hp : w.resolve r = p
      · rw [if_pos hp.symm, if_pos ⟨hp, rfl⟩]
      · rw [if_neg (Ne.symm hp), if_neg fun h => hp h.1]
        rfl
    · rw [h3, h4, if_neg (by simp)]

/-- The content after a history. -/
theorem runDisk_content (w : Place) (ops : List FileOp) : ∀ {d : Disk}, d.Sound →
    (runOps (diskStep w) d ops).2.Sound ∧ ∀ p, (runOps (diskStep w) d ops).2.content p =
      match lastSaid w.resolve p (ops.zip (runOps (diskStep w) d ops).1) with
      | .nothing => d.content p
      | .removed => none
      | .saved c => some c := by
  induction ops with
  | nil => intro d hd; exact ⟨hd, fun p => rfl⟩
  | cons op ops ih =>
    intro d hd
    obtain ⟨s1, s2⟩ := diskStep_content w hd op
    obtain ⟨i1, i2⟩ := ih s1
    refine ⟨i1, fun p => ?_⟩
    simp only [runOps, List.zip_cons_cons, lastSaid]
    rw [i2 p]
    cases lastSaid w.resolve p (ops.zip (runOps (diskStep w) (diskStep w d op).2 ops).1) with
    | nothing =>
      simp only
      rw [s2 p]
      split
      · cases op <;> rfl
      · rfl
    | removed => rfl
    | saved c => rfl

/-! ## C55 -/

/-- C55: after every history of saves and deletions on the disk store, successful or not, started in
any file system, a retrieval returns exactly the content of the last successful save of that file if
no successful deletion followed it, and fails otherwise; for files that no call succeeded on, the
result is that of the start. Different path texts can denote the same file. -/
theorem C55_last_save_wins (w : Place) {d : Disk} (hd : d.Sound) (ops : List FileOp) (rel c : Bytes) :
    diskRetrieve w (runOps (diskStep w) d ops).2 rel = .ok c ↔
      match lastSaid w.resolve (w.resolve rel) (ops.zip (runOps (diskStep w) d ops).1) with
      | .nothing => diskRetrieve w d rel = .ok c
      | .removed => False
      | .saved c' => c' = c := by
  rw [diskRetrieve_iff, (runDisk_content w ops hd).2]
  cases lastSaid w.resolve (w.resolve rel) (ops.zip (runOps (diskStep w) d ops).1) with
  | nothing => rw [diskRetrieve_iff]
  | removed => simp
  | saved c' => simp

/-- C55: nothing on the disk store panics. -/
theorem C55_no_panic (w : Place) {d : Disk} (hd : d.Sound) (op : FileOp) (rel : Bytes) :
    (∀ c, (diskStep w d op).1 ≠ .crash c) ∧ (∀ c, diskRetrieve w d rel ≠ .crash c) ∧
    (∀ c, diskRetrieveAll w d rel ≠ .crash c) := by
  refine ⟨fun c h => ?_, fun c h => ?_, fun c h => ?_⟩
  · cases op with
    | save r x =>
      rcases (diskSave_spec w hd r x).2 with ⟨h', -⟩ | ⟨⟨m, h'⟩, -⟩ <;>
      · simp only [diskStep] at h; rw [h'] at h; cases h
    | delete r =>
      rcases (diskDelete_spec w hd r).2 with ⟨h', -⟩ | ⟨⟨m, h'⟩, -⟩ <;>
      · simp only [diskStep] at h; rw [h'] at h; cases h
  · unfold diskRetrieve at h; split at h <;> cases h
  · simp only [diskRetrieveAll] at h; split at h <;> cases h

/-- C55: a save returns nil exactly when its path is not a directory and no element above it is a
regular file; when it fails it changes nothing. -/
theorem C55_save_succeeds_iff (w : Place) {d : Disk} (hd : d.Sound) (rel c : Bytes) :
    ((diskSave w d rel c).1 = .ok () ↔ d.at? (w.resolve rel) ≠ some .dir ∧
      ∀ k < (w.resolve rel).length, ∀ c, d.at? ((w.resolve rel).take k) ≠ some (.file c)) ∧
    ((diskSave w d rel c).1 ≠ .ok () → (diskSave w d rel c).2 = d) := by
  have hb : (∀ k < (w.resolve rel).length, ∀ c, d.at? ((w.resolve rel).take k) ≠ some (.file c)) ↔
      d.blocked (w.resolve rel) = false := by
    rw [← Bool.not_eq_true, Disk.blocked_iff]
    push Not
    rfl
  rw [hb]
  rcases (diskSave_spec w hd rel c).2 with ⟨h1, h2, h3, -⟩ | ⟨⟨m, h1⟩, h2, h3⟩
  · exact ⟨⟨fun _ => ⟨h2, h3⟩, fun _ => h1⟩, fun h => absurd h1 h⟩
  · refine ⟨⟨fun h => (by rw [h1] at h; cases h), fun h => ?_⟩, fun _ => h2⟩
    rcases h3 with h3 | h3
    · exact absurd h3 h.1
    · rw [h.2] at h3; cases h3

/-- C55: `DeleteAll` deletes the files in front of the first one that cannot be deleted, and no
other; it returns nil exactly when there is no such one. -/
theorem C55_delete_all (w : Place) (rels : List Bytes) : ∀ d : Disk, ∃ n ≤ rels.length,
    let run := runOps (diskStep w) d ((rels.take n).map .delete)
    (diskDeleteAll w d rels).2 = run.2 ∧ (∀ r ∈ run.1, r = .ok ()) ∧
    ((diskDeleteAll w d rels).1 = .ok () ↔ n = rels.length) ∧
    ∀ rel, rels[n]? = some rel → (diskDelete w run.2 rel).1 ≠ .ok () ∧
      (diskDelete w run.2 rel).2 = run.2 := by
  induction rels with
  | nil => intro d; exact ⟨0, le_refl _, rfl, by simp [runOps], by simp [diskDeleteAll], by simp⟩
  | cons r rels ih =>
    intro d
    have hsame : (diskDelete w d r).1 ≠ .ok () → (diskDelete w d r).2 = d := by
      unfold diskDelete
      simp only
      split
      · intro _; rfl
      · unfold Disk.remove
        split
        · intro _; rfl
        · intro h; exact absurd rfl h
        · split
          · intro _; rfl
          · intro h; exact absurd rfl h
    rcases hx : diskDelete w d r with ⟨o, d'⟩
    rw [hx] at hsame
    cases o with
    | ok u =>
      obtain ⟨n, hn, h1, h2, h3, h4⟩ := ih d'
      refine ⟨n + 1, by simpa using hn, ?_⟩
      simp only [List.take_succ_cons, List.map_cons, runOps, diskStep, hx, diskDeleteAll,
        List.mem_cons, forall_eq_or_imp, List.length_cons, Nat.add_right_cancel_iff, true_and,
        List.getElem?_cons_succ]
      exact ⟨h1, h2, h3, h4⟩
    | err m =>
      refine ⟨0, by simp, ?_⟩
      have := hsame (by simp)
      simp only at this
      subst this
      simp only [List.take_zero, List.map_nil, runOps, diskDeleteAll, hx, List.getElem?_cons_zero,
        Option.some.injEq]
      refine ⟨by trivial, by simp, by simp, ?_⟩
      rintro _ rfl
      simp [hx]
    | crash c =>
      refine ⟨0, by simp, ?_⟩
      have := hsame (by simp)
      simp only at this
      subst this
      simp only [List.take_zero, List.map_nil, runOps, diskDeleteAll, hx, List.getElem?_cons_zero,
        Option.some.injEq]
      refine ⟨by trivial, by simp, by simp, ?_⟩
      rintro _ rfl
      simp [hx]

/-! ## Paths -/

theorem walk_proper {n : Bytes} (h : ProperName n) (p : Path) : walk p n = p ++ [n] := by
  simp [walk, h.1, h.2.1, h.2.2.1]

theorem foldl_walk_proper : ∀ {q : Path}, (∀ n ∈ q, ProperName n) → ∀ p, q.foldl walk p = p ++ q
  | [], _, p => by simp
  | n :: q, h, p => by
    rw [List.foldl_cons, walk_proper (h n (by simp)), foldl_walk_proper fun m hm => h m (by simp [hm])]
    simp

theorem head?_append_ne {a : Bytes} (ha : a ≠ []) (b : Bytes) : (a ++ b).head? = a.head? := by
  cases a with
  | nil => exact absurd rfl ha
  | cons x a => rfl

theorem absolute_joinText {cwd : Path} {a b : Bytes} (h : a ≠ [] ∨ b.head? ≠ some 47) :
    absolute cwd (joinText a b) = (splitOn 47 b).foldl walk (absolute cwd a) := by
  unfold joinText
  by_cases ha : a = []
  · subst ha
    rw [if_pos rfl]
    rcases h with h | h
    · exact absurd rfl h
    · unfold absolute
      rw [if_neg h]
      simp [splitOn, walk]
  · rw [if_neg ha]
    by_cases hb : b = []
    · subst hb
      rw [if_pos rfl]
      simp [splitOn, walk]
    · rw [if_neg hb]
      unfold absolute
      rw [head?_append_ne ha, splitOn_append_sep, List.foldl_append]

theorem joinText_assoc (a b c : Bytes) : joinText a (joinText b c) = joinText (joinText a b) c := by
  unfold joinText
  by_cases ha : a = []
  · simp [ha]
  · by_cases hb : b = []
    · simp [hb, ha]
    · by_cases hc : c = []
      · simp [ha, hb, hc]
      · simp [ha, hb, hc]

theorem resolve_child (w : Place) (rel : Bytes) {n : Bytes} (hn : ProperName n) :
    w.resolve (joinText rel n) = w.resolve rel ++ [n] := by
  unfold Place.resolve
  rw [joinText_assoc, absolute_joinText (.inr ?_), splitOn_of_not_mem hn.2.2.2]
  · exact walk_proper hn _
  · intro h
    cases n with
    | nil => cases h
    | cons x n => simp at h; exact hn.2.2.2 (by simp [h])

theorem nameLe_trans : ∀ a b c : Bytes, nameLe a b = true → nameLe b c = true → nameLe a c = true
  | [], _, _, _, _ => by simp [nameLe]
  | _ :: _, [], _, h, _ => by simp [nameLe] at h
  | _ :: _, _ :: _, [], _, h => by simp [nameLe] at h
  | x :: a, y :: b, z :: c, h1, h2 => by
    simp only [nameLe, Bool.or_eq_true, decide_eq_true_eq, Bool.and_eq_true, beq_iff_eq] at h1 h2 ⊢
    rcases h1 with h1 | ⟨rfl, h1⟩
    · rcases h2 with h2 | ⟨rfl, h2⟩
      · exact .inl (UInt8.lt_trans h1 h2)
      · exact .inl h1
    · rcases h2 with h2 | ⟨rfl, h2⟩
      · exact .inl h2
      · exact .inr ⟨rfl, nameLe_trans a b c h1 h2⟩

theorem nameLe_total : ∀ a b : Bytes, (nameLe a b || nameLe b a) = true
  | [], _ => by simp [nameLe]
  | _ :: _, [] => by simp [nameLe]
  | x :: a, y :: b => by
    have ih := nameLe_total a b
    simp only [nameLe, Bool.or_eq_true, decide_eq_true_eq, Bool.and_eq_true, beq_iff_eq] at ih ⊢
    have tri : x < y ∨ x = y ∨ y < x := by
      rw [UInt8.lt_iff_toNat_lt, UInt8.lt_iff_toNat_lt, ← UInt8.toNat_inj]
      omega
    rcases tri with h | h | h
    · exact .inl (.inl h)
    · subst h
      rcases ih with h | h
      · exact .inl (.inr ⟨rfl, h⟩)
      · exact .inr (.inr ⟨rfl, h⟩)
    · exact .inr (.inl h)

/-- C55: `RetrieveAll` succeeds exactly on directories and returns, in order and once each, the
names of the regular files directly in it: exactly those that `Retrieve` then finds. -/
theorem C55_listing (w : Place) (d : Disk) (rel : Bytes) :
    ((∃ names, diskRetrieveAll w d rel = .ok names) ↔ d.at? (w.resolve rel) = some .dir) ∧
    ∀ names, diskRetrieveAll w d rel = .ok names →
      names.Pairwise (fun a b => nameLe a b = true) ∧ names.Nodup ∧
      ∀ n, ProperName n →
        (n ∈ names ↔ ∃ c, diskRetrieve w d (joinText rel n) = .ok c) := by
  constructor
  · simp only [diskRetrieveAll]
    split <;> simp_all
  · intro names h
    simp only [diskRetrieveAll] at h
    split at h
    · injection h with h
      subst h
      refine ⟨List.pairwise_mergeSort nameLe_trans nameLe_total _, ?_, fun n hn => ?_⟩
      · rw [(List.mergeSort_perm _ _).nodup_iff]
        refine List.Nodup.map_on ?_ ((List.nodup_dedup _).filter _)
        intro q hq q' hq' he
        have h1 := Disk.mem_below.mp (List.mem_of_mem_filter hq)
        have h2 := Disk.mem_below.mp (List.mem_of_mem_filter hq')
        obtain ⟨n1, e1⟩ : ∃ x, q = w.resolve rel ++ [x] :=
          ⟨_, by rw [← h1.2.1]; exact (List.dropLast_append_getLast h1.1).symm⟩
        obtain ⟨n2, e2⟩ : ∃ x, q' = w.resolve rel ++ [x] :=
          ⟨_, by rw [← h2.2.1]; exact (List.dropLast_append_getLast h2.1).symm⟩
        subst e1 e2
        simpa using he
      · rw [List.mem_mergeSort]
        simp only [diskRetrieve_iff, resolve_child w rel hn, List.mem_map, List.mem_filter,
          Disk.mem_below, Disk.content]
        constructor
        · rintro ⟨q, ⟨⟨h1, h2, h3⟩, h4⟩, h5⟩
          have : w.resolve rel ++ [n] = q := by
            rw [← List.dropLast_append_getLast h1, h2, ← h5, List.getLastD_eq_getLast?,
              List.getLast?_eq_some_getLast h1]
            rfl
          rw [this]
          cases hq : d.at? q with
          | none => exact absurd hq h3
          | some node =>
            cases node with
            | dir => simp [hq] at h4
            | file c => exact ⟨c, rfl⟩
        · rintro ⟨c, hc⟩
          refine ⟨w.resolve rel ++ [n], ⟨⟨by simp, by simp, ?_⟩, ?_⟩, by simp⟩
          · intro h; rw [h] at hc; cases hc
          · cases hq : d.at? (w.resolve rel ++ [n]) with
            | none => simp
            | some node =>
              cases node with
              | dir => rw [hq] at hc; cases hc
              | file c => simp
    · cases h
    · cases h

/-! ## C81 -/

theorem foldl_up (n : Nat) : ∀ p : Path, p.length ≤ n →
    (List.replicate n [46, 46]).foldl walk p = [] := by
  induction n with
  | zero => intro p hp; simpa using hp
  | succ n ih =>
    intro p hp
    rw [List.replicate_succ, List.foldl_cons]
    exact ih _ (by simp [walk]; omega)

/-- Every file of the system is denoted by some path text. -/
theorem resolve_surjective (w : Place) {q : Path} (hq : ∀ n ∈ q, ProperName n) :
    ∃ rel, w.resolve rel = q := by
  let ups : List Bytes := List.replicate ((absolute w.cwd w.base).length + 1) [46, 46]
  refine ⟨joinWith 47 (ups ++ q), ?_⟩
  have hs : splitOn 47 (joinWith 47 (ups ++ q)) = ups ++ q := by
    refine splitOn_joinWith (by simp [ups]) fun p hp => ?_
    rcases List.mem_append.mp hp with h | h
    · rw [List.eq_of_mem_replicate h]; decide
    · exact (hq p h).2.2.2
  unfold Place.resolve
  rw [absolute_joinText (.inr ?_), hs, List.foldl_append, foldl_up _ _ (Nat.le_succ _),
    foldl_walk_proper hq]
  · simp
  · have : ∀ l : List Bytes, (joinWith 47 ([46, 46] :: l)).head? = some 46 := by
      intro l; cases l <;> rfl
    simp only [ups, List.replicate_succ, List.cons_append]
    rw [this]
    decide

/-- C81, negation: the base directory confines nothing. Whatever the base is, for every file of the
system that is not a directory and has no regular file above it there is a relative path with which
`Save` writes exactly that file, `Retrieve` reads it and `Delete` removes it. -/
theorem C81_escapes_neg (w : Place) {d : Disk} (hd : d.Sound) {q : Path}
    (hq : ∀ n ∈ q, ProperName n) (hdir : d.at? q ≠ some .dir)
    (hfree : ∀ k < q.length, ∀ c, d.at? (q.take k) ≠ some (.file c)) :
    ∃ rel, (∀ c, (diskSave w d rel c).1 = .ok () ∧ (diskSave w d rel c).2.at? q = some (.file c)) ∧
      ∀ c, d.at? q = some (.file c) →
        diskRetrieve w d rel = .ok c ∧ (diskDelete w d rel).1 = .ok () ∧
        (diskDelete w d rel).2.at? q = none := by
  obtain ⟨rel, rfl⟩ := resolve_surjective w hq
  refine ⟨rel, fun c => ?_, fun c hc => ⟨?_, ?_⟩⟩
  · have h := ((C55_save_succeeds_iff w hd rel c).1).mpr ⟨hdir, hfree⟩
    refine ⟨h, ?_⟩
    rcases (diskSave_spec w hd rel c).2 with ⟨-, -, -, h', -⟩ | ⟨⟨m, h'⟩, -⟩
    · exact h'
    · rw [h] at h'; cases h'
  · rw [diskRetrieve_iff, Disk.content, hc]
  · rcases (diskDelete_spec w hd rel).2 with ⟨h1, -, h2⟩ | ⟨-, -, h | h⟩
    · exact ⟨h1, by rw [h2]; simp⟩
    · rw [hc] at h; cases h
    · rw [hc] at h; cases h.1

/-- C81, what does hold: a relative path without a `..` element stays below the base directory.
Missing: the store does not check this, so the claim fails for other paths (`C81_escapes_neg`). -/
theorem C81_stays_inside_partial (w : Place) (hb : w.base ≠ []) (rel : Bytes)
    (hr : [46, 46] ∉ splitOn 47 rel) : w.resolve [] <+: w.resolve rel := by
  unfold Place.resolve
  rw [absolute_joinText (.inl hb), absolute_joinText (.inl hb)]
  have key : ∀ (l : List Bytes) (p : Path), [46, 46] ∉ l → p <+: l.foldl walk p := by
    intro l
    induction l with
    | nil => intro p _; exact List.prefix_rfl
    | cons n l ih =>
      intro p hn
      simp only [List.mem_cons, not_or] at hn
      refine List.IsPrefix.trans ?_ (ih (walk p n) hn.2)
      unfold walk
      rw [if_neg (Ne.symm hn.1)]
      split
      · exact List.prefix_rfl
      · exact List.prefix_append _ _
  exact key _ _ hr

/-! ## C82 -/

/-- Path texts that two stores can be compared on: different texts denote different files, and none
of them denotes something above another one. -/
def Apart (w : Place) (S : Bytes → Prop) : Prop :=
  ∀ r, S r → ∀ r', S r' → w.resolve r <+: w.resolve r' → r = r'

theorem testRetrieve_save (t : TestStore) (r c r' : Bytes) :
    testRetrieve (testSave t r c).2 r' = if r' = r then .ok c else testRetrieve t r' := by
  unfold testRetrieve testSave
  by_cases h : r' = r
  · subst h; simp
  · rw [if_neg h, List.find?_cons_of_neg (by simp; exact Ne.symm h), List.find?_filter]
    have : (fun e : Bytes × Bytes => decide (decide (e.1 ≠ r) = true ∧ decide (e.1 = r') = true)) =
        fun e => decide (e.1 = r') := by
      funext e
      by_cases he : e.1 = r'
      · simp [he, h]
      · simp [he]
    rw [this]

theorem testRetrieve_delete (t : TestStore) (r r' : Bytes) :
    testRetrieve (testDelete t r).2 r' =
      if r' = r then .err "the relativePath does not exists" else testRetrieve t r' := by
  unfold testDelete
  split
  · unfold testRetrieve
    by_cases h : r' = r
    · subst h
      rw [if_pos rfl, List.find?_filter]
      have : (fun e : Bytes × Bytes => decide (decide (e.1 ≠ r') = true ∧ decide (e.1 = r') = true)) =
          fun _ => false := by
        funext e
        by_cases he : e.1 = r' <;> simp [he]
      rw [this, List.find?_eq_none.mpr (by simp)]
    · rw [if_neg h, List.find?_filter]
      have : (fun e : Bytes × Bytes => decide (decide (e.1 ≠ r) = true ∧ decide (e.1 = r') = true)) =
          fun e => decide (e.1 = r') := by
        funext e
        by_cases he : e.1 = r'
        · simp [he, h]
        · simp [he]
      rw [this]
  · rename_i hn
    split
    · rename_i h; subst h; simp [testRetrieve, hn]
    · rfl

theorem testDelete_ok {t : TestStore} {r : Bytes} :
    (testDelete t r).1 = .ok () ↔ ∃ c, testRetrieve t r = .ok c := by
  unfold testDelete testRetrieve
  split <;> simp

/-- The two stores agree on `S`. -/
structure Agree (w : Place) (S : Bytes → Prop) (d : Disk) (t : TestStore) : Prop where
  sound : d.Sound
  same : ∀ r, S r → ∀ c, diskRetrieve w d r = .ok c ↔ testRetrieve t r = .ok c
  noDir : ∀ r, S r → d.at? (w.resolve r) ≠ some .dir
  free : ∀ r, S r → ∀ q, q <+: w.resolve r → q ≠ w.resolve r → ∀ c, d.at? q ≠ some (.file c)

theorem Agree.notBlocked {w : Place} {S : Bytes → Prop} {d : Disk} {t : TestStore}
    (h : Agree w S d t) {r : Bytes} (hr : S r) : d.blocked (w.resolve r) = false := by
  rw [Bool.eq_false_iff]
  intro hb
  obtain ⟨k, hk, c, hc⟩ := Disk.blocked_iff.mp hb
  refine h.free r hr _ (List.take_prefix _ _) (fun e => ?_) c hc
  have := congrArg List.length e
  simp at this
  omega

theorem Agree.step {w : Place} {S : Bytes → Prop} (hS : Apart w S) {d : Disk} {t : TestStore}
    (h : Agree w S d t) (op : FileOp) (hop : S op.rel) :
    ((diskStep w d op).1 = .ok () ↔ (testStep t op).1 = .ok ()) ∧
    Agree w S (diskStep w d op).2 (testStep t op).2 := by
  have inj : ∀ r, S r → ∀ r', S r' → (w.resolve r = w.resolve r' ↔ r = r') := fun r hr r' hr' =>
    ⟨fun e => hS r hr r' hr' (by rw [e]), fun e => by rw [e]⟩
  cases op with
  | save r c =>
    simp only [diskStep, testStep, FileOp.rel] at hop ⊢
    obtain ⟨s1, s2⟩ := diskSave_spec w h.sound r c
    rcases s2 with ⟨h1, h2, h3, h4, h5⟩ | ⟨-, -, h3 | h3⟩
    · refine ⟨by simp [h1, testSave], s1, fun r' hr' c' => ?_, fun r' hr' hc => ?_, fun r' hr' q hq hne c' hc => ?_⟩
      · rw [diskRetrieve_iff, testRetrieve_save]
        by_cases e : r' = r
        · subst e
          rw [if_pos rfl, Disk.content, h4]
          simp
        · rw [if_neg e, ← h.same r' hr', diskRetrieve_iff]
          have e' : w.resolve r' ≠ w.resolve r := fun x => e ((inj r' hr' r hop).mp x)
          unfold Disk.content
          rcases h5 _ e' with h6 | ⟨-, -, h6⟩
          · rw [h6]
          · exact absurd (hS r' hr' r hop h6) e
      · by_cases e : w.resolve r' = w.resolve r
        · rw [e, h4] at hc; cases hc
        · rcases h5 _ e with h6 | ⟨-, -, h6⟩
          · rw [h6] at hc; exact h.noDir r' hr' hc
          · exact e (by rw [hS r' hr' r hop h6])
      · by_cases e : q = w.resolve r
        · rw [e] at hq hne
          exact hne (by rw [hS r hop r' hr' hq])
        · rcases h5 q e with h6 | ⟨-, h6, -⟩
          · rw [h6] at hc; exact h.free r' hr' q hq hne c' hc
          · rw [h6] at hc; cases hc
    · exact absurd h3 (h.noDir r hop)
    · rw [h.notBlocked hop] at h3; cases h3
  | delete r =>
    simp only [diskStep, testStep, FileOp.rel] at hop ⊢
    obtain ⟨s1, s2⟩ := diskDelete_spec w h.sound r
    rcases s2 with ⟨h1, h2, h3⟩ | ⟨⟨m, h1⟩, h2, h3⟩
    · have hf : ∃ c, d.at? (w.resolve r) = some (.file c) := by
        rcases h2 with h2 | h2
        · exact h2
        · exact absurd h2.1 (h.noDir r hop)
      obtain ⟨c, hf⟩ := hf
      have ht : testRetrieve t r = .ok c := by
        rw [← h.same r hop, diskRetrieve_iff, Disk.content, hf]
      refine ⟨by simp [h1, testDelete_ok.mpr ⟨c, ht⟩], s1, fun r' hr' c' => ?_,
        fun r' hr' hc => ?_, fun r' hr' q hq hne c' hc => ?_⟩
      · rw [diskRetrieve_iff, testRetrieve_delete, Disk.content, h3]
        by_cases e : r' = r
        · subst e; simp
        · have e' : w.resolve r' ≠ w.resolve r := fun x => e ((inj r' hr' r hop).mp x)
          rw [if_neg e, if_neg e', ← h.same r' hr', diskRetrieve_iff]
          rfl
      · rw [h3] at hc
        split at hc
        · cases hc
        · exact h.noDir r' hr' hc
      · rw [h3] at hc
        split at hc
        · cases hc
        · exact h.free r' hr' q hq hne c' hc
    · have hn : d.at? (w.resolve r) = none := by
        rcases h3 with h3 | h3
        · exact h3
        · exact absurd h3.1 (h.noDir r hop)
      have ht : ¬ ∃ c, testRetrieve t r = .ok c := by
        rintro ⟨c, hc⟩
        rw [← h.same r hop, diskRetrieve_iff, Disk.content, hn] at hc
        cases hc
      have ht' : (testDelete t r).2 = t := by
        unfold testDelete
        split
        · rename_i e he
          exact absurd ⟨e.2, by simp [testRetrieve, he]⟩ ht
        · rfl
      rw [h2, ht']
      exact ⟨by simp [h1, testDelete_ok, ht], h⟩

theorem Agree.run {w : Place} {S : Bytes → Prop} (hS : Apart w S) {d : Disk} {t : TestStore}
    (start : Agree w S d t) {ops : List FileOp} (hops : ∀ op ∈ ops, S op.rel) :
    List.Forall₂ (fun x y => x = .ok () ↔ y = .ok ())
      (runOps (diskStep w) d ops).1 (runOps testStep t ops).1 ∧
    Agree w S (runOps (diskStep w) d ops).2 (runOps testStep t ops).2 := by
  induction ops generalizing d t with
  | nil => exact ⟨.nil, start⟩
  | cons op ops ih =>
    obtain ⟨h1, h2⟩ := start.step hS op (hops op (by simp))
    obtain ⟨i1, i2⟩ := ih h2 fun o ho => hops o (by simp [ho])
    exact ⟨.cons h1 i1, i2⟩

theorem Agree.start {w : Place} {S : Bytes → Prop} {d : Disk} (hd : d.Sound)
    (hfresh : ∀ r, S r → d.at? (w.resolve r) = none ∧
      ∀ q, q <+: w.resolve r → ∀ c, d.at? q ≠ some (.file c)) : Agree w S d [] := by
  refine ⟨hd, fun r hr c => ?_, fun r hr hc => ?_, fun r hr q hq _ c => (hfresh r hr).2 q hq c⟩
  · rw [diskRetrieve_iff, Disk.content, (hfresh r hr).1]
    simp [testRetrieve]
  · rw [(hfresh r hr).1] at hc; cases hc

theorem Agree.deleteAll {w : Place} {S : Bytes → Prop} (hS : Apart w S) {rels : List Bytes} :
    ∀ {d : Disk} {t : TestStore}, Agree w S d t → (∀ r ∈ rels, S r) →
    ((diskDeleteAll w d rels).1 = .ok () ↔ (testDeleteAll t rels).1 = .ok ()) ∧
    Agree w S (diskDeleteAll w d rels).2 (testDeleteAll t rels).2 := by
  induction rels with
  | nil => intro d t h _; exact ⟨by simp [diskDeleteAll, testDeleteAll], h⟩
  | cons r rels ih =>
    intro d t h hr
    have hs := h.step hS (.delete r) (hr r (by simp))
    simp only [diskStep, testStep] at hs
    unfold diskDeleteAll testDeleteAll
    rcases hx : diskDelete w d r with ⟨o, d'⟩
    rcases hy : testDelete t r with ⟨o', t'⟩
    rw [hx, hy] at hs
    obtain ⟨h1, h2⟩ := hs
    simp only at h1 h2
    cases o with
    | ok u =>
      cases h1.mp rfl
      exact ih h2 fun r hr' => hr r (by simp [hr'])
    | err m =>
      cases o' with
      | ok u => cases h1.mpr rfl
      | err m' => exact ⟨by simp, h2⟩
      | crash c => exact ⟨by simp, h2⟩
    | crash c =>
      cases o' with
      | ok u => cases h1.mpr rfl
      | err m' => exact ⟨by simp, h2⟩
      | crash c' => exact ⟨by simp, h2⟩

/-- C82: on paths that are apart from each other, and from files that exist already, the disk store
and the store used in tests are indistinguishable by saving, deleting and retrieving: after every
history the same calls have succeeded and the same contents are retrieved. -/
theorem C82_test_store_agrees_partial (w : Place) {S : Bytes → Prop} (hS : Apart w S)
    {d : Disk} (hd : d.Sound)
    (hfresh : ∀ r, S r → d.at? (w.resolve r) = none ∧
      ∀ q, q <+: w.resolve r → ∀ c, d.at? q ≠ some (.file c))
    (ops : List FileOp) (hops : ∀ op ∈ ops, S op.rel) :
    List.Forall₂ (fun x y => x = .ok () ↔ y = .ok ())
      (runOps (diskStep w) d ops).1 (runOps testStep [] ops).1 ∧
    ∀ rel, S rel → ∀ c, diskRetrieve w (runOps (diskStep w) d ops).2 rel = .ok c ↔
      testRetrieve (runOps testStep [] ops).2 rel = .ok c :=
  ((Agree.start hd hfresh).run hS hops).imp id fun h => h.same

/-- C82: the same for `DeleteAll` after every such history: on both stores it succeeds, or on both it fails,
and the same contents are retrieved after it. -/
theorem C82_delete_all_agrees_partial (w : Place) {S : Bytes → Prop} (hS : Apart w S)
    {d : Disk} (hd : d.Sound)
    (hfresh : ∀ r, S r → d.at? (w.resolve r) = none ∧
      ∀ q, q <+: w.resolve r → ∀ c, d.at? q ≠ some (.file c))
    (ops : List FileOp) (hops : ∀ op ∈ ops, S op.rel) (rels : List Bytes) (hrels : ∀ r ∈ rels, S r) :
    let x := diskDeleteAll w (runOps (diskStep w) d ops).2 rels
    let y := testDeleteAll (runOps testStep [] ops).2 rels
    (x.1 = .ok () ↔ y.1 = .ok ()) ∧
    ∀ rel, S rel → ∀ c, diskRetrieve w x.2 rel = .ok c ↔ testRetrieve y.2 rel = .ok c :=
  (((Agree.start hd hfresh).run hS hops).2.deleteAll hS hrels).imp id fun h => h.same

/-- C82, negation: the test store takes texts for paths. What was saved at `r` is found on disk at
`./r` too; the test store does not find it there. -/
theorem C82_spelling_matters_neg (w : Place) (hb : w.base ≠ []) {d : Disk} (hd : d.Sound)
    (t : TestStore) (r c : Bytes) (hok : (diskSave w d r c).1 = .ok ())
    (ht : ∀ x, testRetrieve t (46 :: 47 :: r) ≠ .ok x) :
    diskRetrieve w (diskSave w d r c).2 (46 :: 47 :: r) = .ok c ∧
    ∀ x, testRetrieve (testSave t r c).2 (46 :: 47 :: r) ≠ .ok x := by
  constructor
  · rw [diskRetrieve_iff]
    have e : w.resolve (46 :: 47 :: r) = w.resolve r := by
      unfold Place.resolve
      rw [absolute_joinText (.inl hb), absolute_joinText (.inl hb)]
      have : splitOn 47 (46 :: 47 :: r) = [46] :: splitOn 47 r := by simp [splitOn]
      rw [this]
      simp [walk]
    rw [e]
    rcases (diskSave_spec w hd r c).2 with ⟨-, -, -, h, -⟩ | ⟨⟨m, h⟩, -⟩
    · rw [Disk.content, h]
    · rw [hok] at h; cases h
  · intro x hx
    rw [testRetrieve_save, if_neg] at hx
    · exact ht x hx
    · intro h
      have := congrArg List.length h
      simp only [List.length_cons] at this
      omega

/-- C82, negation: the listings differ. A file `n` saved in a directory `rel` is listed by the disk
store as `n` and by the test store as `rel/n`; for a directory that does not exist, the disk store
fails and the test store returns an empty list. -/
theorem C82_listing_differs_neg (w : Place) {d : Disk} (hd : d.Sound) (rel n c : Bytes)
    (hrel : rel ≠ []) (hn : ProperName n) (hfree : d.at? (w.resolve rel) = none)
    (hok : (diskSave w d (joinText rel n) c).1 = .ok ()) :
    diskRetrieveAll w (diskSave w d (joinText rel n) c).2 rel = .ok [n] ∧
    testRetrieveAll w.cwd (testSave [] (joinText rel n) c).2 rel = .ok [joinText rel n] ∧
    [n] ≠ [joinText rel n] ∧
    (∀ names, diskRetrieveAll w d rel ≠ .ok names) ∧ testRetrieveAll w.cwd [] rel = .ok [] := by
  have hres := resolve_child w rel hn
  have h47 : n.head? ≠ some 47 := by
    intro h
    cases n with
    | nil => cases h
    | cons x n => simp at h; exact hn.2.2.2 (by simp [h])
  obtain ⟨s1, s2⟩ := diskSave_spec w hd (joinText rel n) c
  rw [hres] at s2
  rcases s2 with ⟨-, -, -, h4, h5⟩ | ⟨⟨m, h⟩, -⟩
  swap
  · rw [hok] at h; cases h
  have hdir : (diskSave w d (joinText rel n) c).2.at? (w.resolve rel) = some .dir := by
    have := s1 (w.resolve rel ++ [n]) (by simp) (by rw [h4]; simp)
    simpa using this
  refine ⟨?_, ?_, ?_, fun names => ?_, by simp [testRetrieveAll]⟩
  · have hbelow : (diskSave w d (joinText rel n) c).2.below (w.resolve rel) = [w.resolve rel ++ [n]] := by
      have hnd : ((diskSave w d (joinText rel n) c).2.below (w.resolve rel)).Nodup :=
        List.nodup_dedup _
      have hmem : ∀ q, q ∈ (diskSave w d (joinText rel n) c).2.below (w.resolve rel) ↔
          q = w.resolve rel ++ [n] := by
        intro q
        rw [Disk.mem_below]
        constructor
        · rintro ⟨h1, h2, h3⟩
          by_contra hne
          rcases h5 q hne with h6 | ⟨h6, -, h7⟩
          · rw [h6] at h3
            have := hd q h1 h3
            rw [h2, hfree] at this
            cases this
          · refine hne (List.IsPrefix.eq_of_length h7 ?_)
            have := congrArg List.length h2
            have hpos := List.length_pos_iff.mpr h1
            simp at this ⊢
            omega
        · rintro rfl
          exact ⟨by simp, by simp, by rw [h4]; simp⟩
      exact List.perm_singleton.mp ((List.perm_ext_iff_of_nodup hnd (by simp)).mpr (by simpa using hmem))
    simp only [diskRetrieveAll, hdir, hbelow]
    simp [h4]
  · simp only [testRetrieveAll, testSave, List.filter_nil]
    have hd' : absolute w.cwd (dirText (joinText rel n)) = absolute w.cwd rel := by
      have hj : joinText rel n = rel ++ 47 :: n := by simp [joinText, hrel, hn.1]
      unfold dirText
      rw [hj, splitOn_append_sep, splitOn_of_not_mem hn.2.2.2]
      have hl : (splitOn 47 rel ++ [n]).length ≠ 1 := by
        have := List.length_pos_iff.mpr (splitOn_ne_nil 47 rel)
        simp
        exact splitOn_ne_nil 47 rel
      rw [if_neg hl, List.dropLast_concat]
      have e2 : splitOn 47 (joinWith 47 (splitOn 47 rel ++ [[]])) = splitOn 47 rel ++ [[]] := by
        refine splitOn_joinWith (by simp) fun p hp => ?_
        rcases List.mem_append.mp hp with h | h
        · exact splitOn_parts_clean 47 rel p h
        · simp at h; simp [h]
      have e3 : joinWith 47 (splitOn 47 rel ++ [[]]) = rel ++ [47] := by
        have : splitOn 47 rel ++ [[]] = splitOn 47 (rel ++ [47]) := by
          rw [splitOn_append_sep]; simp [splitOn]
        rw [this, joinWith_splitOn]
      unfold absolute
      rw [e2, e3, head?_append_ne hrel]
      simp [walk]
    rw [List.filter_cons_of_pos (by simpa using hd')]
    simp
  · intro h
    have hj : joinText rel n = rel ++ 47 :: n := by simp [joinText, hrel, hn.1]
    rw [hj] at h
    have := congrArg List.length (List.cons.inj h).1
    simp only [List.length_append, List.length_cons] at this
    omega
  · intro h
    simp only [diskRetrieveAll, hfree] at h
    cases h

/-! ## C52 on the store -/

section
variable [K : Cipher]

/-- C52: an encrypted store returns exactly what was saved last: after a successful save, and any
calls that do not successfully touch that file, a retrieval with the same password, under any text
denoting that file, returns the content. -/
theorem C52_store_returns_saved (w : Place) {d : Disk} (hd : d.Sound) (password iv r c : Bytes)
    (hiv : iv.length = 16) (hok : (encSave w password d r c iv).1 = .ok ()) (ops : List FileOp)
    (hops : lastSaid w.resolve (w.resolve r)
      (ops.zip (runOps (diskStep w) (encSave w password d r c iv).2 ops).1) = .nothing)
    (r' : Bytes) (hr : w.resolve r' = w.resolve r) :
    encRetrieve w password (runOps (diskStep w) (encSave w password d r c iv).2 ops).2 r' = .ok c := by
  have h := (runDisk_content w (.save r (encrypt password iv c) :: ops) hd).2 (w.resolve r')
  simp only [runOps, diskStep, List.zip_cons_cons, lastSaid] at h
  unfold encSave at hops hok ⊢
  rw [hr, hops] at h
  simp only [hok, FileOp.rel] at h
  have h' : diskRetrieve w (runOps (diskStep w) (diskSave w d r (encrypt password iv c)).2 ops).2 r' =
      .ok (encrypt password iv c) := by
    rw [diskRetrieve_iff, hr, h]
    simp
  unfold encRetrieve
  rw [h']
  exact C52_decrypt_encrypt password iv c hiv

end

section examples

/-- A process in `/h` with the base path `b`. -/
def exPlace : Place := { cwd := [[104]], base := [98] }

theorem Disk.sound_nil : Disk.Sound [] := by
  intro p hp h
  simp [Disk.at?, hp] at h

/-- C55: saving `x` at `a/c`, then `y` at `./a//c`, then deleting `z`, which does not exist, and
retrieving `a/c` yields `y`; the directory `a` lists `c`. -/
example : ∃ d, runOps (diskStep exPlace) [] [.save [97, 47, 99] [120],
      .save [46, 47, 97, 47, 47, 99] [121], .delete [122]] =
      ([.ok (), .ok (), .err "the given relative path does not exists"], d) ∧
    diskRetrieve exPlace d [97, 47, 99] = .ok [121] ∧
    d.at? [[104], [98], [97]] = some .dir := ⟨_, rfl, rfl, rfl⟩

/-- C55: with a file at `a`, nothing can be saved at `a/c`, and nothing changes. -/
example : (diskSave exPlace [([[104]], .dir), ([[104], [98]], .dir), ([[104], [98], [97]], .file [])]
    [97, 47, 99] [120]).1 ≠ .ok () := by
  have h : (diskSave exPlace [([[104]], .dir), ([[104], [98]], .dir), ([[104], [98], [97]], .file [])]
    [97, 47, 99] [120]).1 = .err "no such file or directory" := rfl
  rw [h]; simp

/-- C55: `DeleteAll` of a present, a missing and another present file deletes the first only. -/
example : ∃ d, diskDeleteAll exPlace (diskSave exPlace (diskSave exPlace [] [97] [120]).2 [99] [121]).2
      [[97], [122], [99]] = (.err "the given relative path does not exists", d) ∧
    diskRetrieve exPlace d [97] = .err "no such file or directory" ∧
    diskRetrieve exPlace d [99] = .ok [121] := ⟨_, rfl, rfl, rfl⟩

/-- C81: from the base `/h/b`, `../../e` is `/e`. -/
example : exPlace.resolve [46, 46, 47, 46, 46, 47, 101] = [[101]] ∧
    ∀ n ∈ ([[101]] : Path), ProperName n := ⟨rfl, by simp [ProperName]⟩

/-- C81: `a/c` has no `..` element. -/
example : [46, 46] ∉ splitOn 47 [97, 47, 99] ∧ exPlace.base ≠ [] := by decide

/-- C82: `a` and `c` are apart, and nothing is there yet. -/
example : Apart exPlace (fun r => r = [97] ∨ r = [99]) ∧
    ∀ r, (r = [97] ∨ r = [99]) → Disk.at? [] (exPlace.resolve r) = none ∧
      ∀ q, q <+: exPlace.resolve r → ∀ c, Disk.at? [] q ≠ some (.file c) := by
  have ha : exPlace.resolve [97] = [[104], [98], [97]] := rfl
  have hc : exPlace.resolve [99] = [[104], [98], [99]] := rfl
  have hn : ∀ q c, Disk.at? [] q ≠ some (.file c) := by
    intro q c; unfold Disk.at?; split <;> simp
  constructor
  · rintro r (rfl | rfl) r' (rfl | rfl) h
    · rfl
    · rw [ha, hc] at h; revert h; decide
    · rw [ha, hc] at h; revert h; decide
    · rfl
  · rintro r (rfl | rfl)
    · exact ⟨rfl, fun q _ => hn q⟩
    · exact ⟨rfl, fun q _ => hn q⟩

/-- C82: saving at `a` succeeds on the empty disk, and the empty test store has nothing at `./a`. -/
example : (diskSave exPlace [] [97] [120]).1 = .ok () ∧
    ∀ x, testRetrieve [] [46, 47, 97] ≠ .ok x := ⟨rfl, by simp [testRetrieve]⟩

/-- C82: so does saving `c` in the missing directory `a`. -/
example : ProperName [99] ∧ Disk.at? [] (exPlace.resolve [97]) = none ∧
    (diskSave exPlace [] (joinText [97] [99]) [120]).1 = .ok () :=
  ⟨by simp [ProperName], rfl, rfl⟩

attribute [local instance] toyCipher in
/-- C52: an encrypted save on the empty disk succeeds, and saving another file does not touch it. -/
example : (encSave exPlace [112] [] [97] [120] (List.replicate 16 0)).1 = .ok () := by
  have h := ((C55_save_succeeds_iff exPlace Disk.sound_nil [97]
    (encrypt [112] (List.replicate 16 0) [120])).1).mpr
  refine h ⟨by decide, fun k _ c => ?_⟩
  unfold Disk.at?
  split <;> simp

end examples

end Verif
