import Verif.Base.Json.Codec

/-!
# Times with their zone

`Verif.Base.Json.Time` reads a time of any zone and forgets the zone, which is enough as long as times
are written in UTC, as those are that the module takes from the clock. A time that was read from the
text of another node keeps the offset of its zone and is written with it. This file models that.
-/

namespace Verif

/-- A `time.Time` with the offset of its location, in minutes: the offset comes from a text, so that
it has no seconds. -/
@[ext] structure ZTime where
  ns : Int
  zone : Int
deriving DecidableEq

/-- Nanoseconds of a minute. -/
def minuteNs : Int := 60 * 10 ^ 9

/-- What the clock shows in the zone. -/
def ZTime.clock (z : ZTime) : Int := z.ns + z.zone * minuteNs

/-- `appendInt(b, n, 2)` of `time/format.go` (Go 1.13): at least two digits. -/
def padTwo (n : Nat) : Bytes := if n < 100 then two n else natDec n

/-- The zone in the layout `Z07:00` (`time/format.go` of Go 1.13, `AppendFormat`). -/
def fmtZone (o : Int) : Bytes :=
  if o = 0 then [90]
  else (if o < 0 then 45 else 43) :: (padTwo (o.natAbs / 60) ++ 58 :: padTwo (o.natAbs % 60))

/-- `time.Time.MarshalJSON`, without the quotes, for a time of any zone: the year, which has to be in 0
to 9999, and the digits are those of the zone. `fmtTime` ends in `Z`, the text of the zone replaces
that. -/
def fmtZTime (z : ZTime) : Option Bytes := (fmtTime z.clock).map fun b => b.dropLast ++ fmtZone z.zone

/-- `parseTime` with the zone in the result (`time/format.go` of Go 1.13, `parse`: `FixedZone`, or the
location of the machine when it has the same offset at that time). -/
def parseZTime : Bytes → Option ZTime
  | y1 :: y2 :: y3 :: y4 :: 45 :: m1 :: m2 :: 45 :: d1 :: d2 :: 84 :: r1 => do
    let yh ← num2 y1 y2
    let yl ← num2 y3 y4
    let m ← num2 m1 m2
    let d ← num2 d1 d2
    let (h, r2) ← getHour r1
    let (n, s, r3) ← parseClock r2
    let (f, z) ← parseFrac r3
    let o ← parseZone z
    let y := 100 * yh + yl
    if m < 1 ∨ 12 < m ∨ d < 1 ∨ daysIn y m < d ∨ 24 ≤ h ∨ 60 ≤ n ∨ 60 ≤ s then none
    else
      let days : Int := (daysBeforeYear y + daysBeforeMonth y m + (d - 1) : Nat) - 366
      some ⟨days * dayNs + ((h * 3600 + n * 60 + s) * 10 ^ 9 + f : Nat) - o * (60 * 10 ^ 9), o⟩
  | _ => none

/-- `time.Time`, with zones. -/
def ztimeC : Codec ZTime where
  zero := ⟨0, 0⟩
  enc z := (fmtZTime z).map .str
  dec
    | .null, old => some old
    | .str l, _ => parseZTime l
    | _, _ => none
  norm := id

/-- The two readers agree on the instant. -/
theorem parseTime_eq (b : Bytes) : parseTime b = (parseZTime b).map ZTime.ns := by
  unfold parseTime
  split
  · rw [parseZTime]
    rename_i y1 y2 y3 y4 m1 m2 d1 d2 r1
    cases num2 y1 y2 with
    | none => rfl
    | some yh =>
    cases num2 y3 y4 with
    | none => rfl
    | some yl =>
    cases num2 m1 m2 with
    | none => rfl
    | some m =>
    cases num2 d1 d2 with
    | none => rfl
    | some d =>
    simp only [Option.bind_eq_bind, Option.bind_some]
    cases getHour r1 with
    | none => rfl
    | some hr =>
    simp only [Option.bind_some]
    cases parseClock hr.2 with
    | none => rfl
    | some ns =>
    simp only [Option.bind_some]
    cases parseFrac ns.2.2 with
    | none => rfl
    | some fz =>
    simp only [Option.bind_some]
    cases parseZone fz.2 with
    | none => rfl
    | some o =>
    simp only [Option.bind_some]
    split <;> rfl
  · rename_i h
    rw [parseZTime.eq_2 _ h]
    rfl

theorem padTwo_length {n : Nat} (h : 100 ≤ n) : 3 ≤ (padTwo n).length := by
  unfold padTwo
  rw [if_neg (by omega)]
  unfold natDec
  rw [if_neg (by omega), List.length_map, List.length_reverse]
  have h1 := (Nat.lt_digits_length_iff (b := 10) (k := 2) (by norm_num) n).mpr (by omega)
  omega

theorem two_eq (n : Nat) : two n = [UInt8.ofNat (48 + n / 10 % 10), UInt8.ofNat (48 + n % 10)] := rfl

theorem digitByte_ne {n : Nat} (h : n < 10) :
    (UInt8.ofNat (48 + n) == 45) = false ∧ (UInt8.ofNat (48 + n) == 43) = false := by
  interval_cases n <;> decide

theorem atoi2_two {n : Nat} (h : n < 100) :
    atoi2 (UInt8.ofNat (48 + n / 10 % 10)) (UInt8.ofNat (48 + n % 10)) = some (n : Int) := by
  have h1 := digitByte_ne (n := n / 10 % 10) (by omega)
  unfold atoi2
  rw [h1.1, h1.2, num2_two h]
  rfl

/-- The text of a zone is read as that zone when it is less than 100 hours away, else it is not read. -/
theorem parseZone_fmtZone (o : Int) :
    parseZone (fmtZone o) = if o.natAbs < 6000 then some o else none := by
  by_cases h0 : o = 0
  · subst h0; rfl
  unfold fmtZone
  rw [if_neg h0]
  have hm : o.natAbs % 60 < 100 := by omega
  by_cases h : o.natAbs < 6000
  · have hh : o.natAbs / 60 < 100 := by omega
    rw [if_pos h]
    simp only [padTwo, if_pos hm, if_pos hh, two_eq, List.cons_append, List.nil_append, parseZone]
    rw [atoi2_two hh, atoi2_two hm]
    simp only [Option.bind_eq_bind, Option.bind_some]
    by_cases hs : o < 0
    · simp only [if_pos hs]
      rw [if_neg (by decide), if_pos (by decide)]
      congr 1
      omega
    · simp only [if_neg hs]
      rw [if_pos (by decide)]
      congr 1
      omega
  · rw [if_neg h]
    have hl := padTwo_length (n := o.natAbs / 60) (by omega)
    unfold parseZone
    split
    · rename_i e
      have := congrArg List.length e
      simp at this
    · rename_i g a b c d e
      have := congrArg List.length e
      simp only [padTwo, if_pos hm, two_eq, List.length_cons, List.length_append, List.length_nil] at this hl
      omega
    · rfl

theorem fmtZone_head (o : Int) : ∀ c ∈ (fmtZone o).head?, isDigit c = false ∧ c ≠ 46 := by
  unfold fmtZone
  split
  · rintro c ⟨⟩; decide
  · split <;> (rintro c ⟨⟩; decide)

/-- A time of the years 0 to 9999 is written with a `Z` at the end; with another text there, it is read
with the zone of that text. -/
theorem parseZTime_zone {t : Int} {b : Bytes} (h : fmtTime t = some b) : ∃ w, b = w ++ [90] ∧
    ∀ z, (∀ c ∈ z.head?, isDigit c = false ∧ c ≠ 46) →
      parseZTime (w ++ z) = (parseZone z).map fun o => ⟨t - o * (60 * 10 ^ 9), o⟩ := by
  unfold fmtTime at h
  simp only at h
  split at h
  · rename_i hd
    simp only [Option.some.injEq] at h
    subst h
    obtain ⟨d, hd'⟩ : ∃ d : Nat, t / dayNs + 366 = d := ⟨(t / dayNs + 366).toNat, by omega⟩
    have hn0 : 0 ≤ t % dayNs := Int.emod_nonneg _ (by norm_num [dayNs])
    have hn1 : t % dayNs < dayNs := Int.emod_lt_of_pos _ (by norm_num [dayNs])
    obtain ⟨n, hn⟩ : ∃ n : Nat, t % dayNs = n := ⟨(t % dayNs).toNat, by omega⟩
    have ht : t = ((d : Int) - 366) * dayNs + n := by
      have := Int.mul_ediv_add_emod t dayNs
      rw [← hn, ← hd']
      linarith
    rw [hd', hn]
    simp only [Int.toNat_natCast]
    rw [hd'] at hd
    rw [hn] at hn1
    have hnlt : n < 86400 * 10 ^ 9 := by
      have : (n : Int) < 86400 * 10 ^ 9 := hn1
      exact_mod_cast this
    clear hn hd' hn0 hn1
    have hdlt : d < 3652425 := by omega
    obtain ⟨c1, c2, c3, c4, c5, c6⟩ := civil_spec hdlt
    have c7 : (civil d).2.2 < 100 := by
      have : daysIn (civil d).1 (civil d).2.1 ≤ 31 := by
        unfold daysIn
        split
        · split <;> omega
        all_goals omega
      omega
    have hs : n / 10 ^ 9 < 86400 := Nat.div_lt_of_lt_mul (by rwa [Nat.mul_comm])
    have hv := Nat.div_add_mod n (10 ^ 9)
    have hf : n % 10 ^ 9 < 10 ^ 9 := Nat.mod_lt _ (by norm_num)
    refine ⟨four (civil d).1 ++ 45 :: (two (civil d).2.1 ++ 45 :: (two (civil d).2.2 ++ 84 ::
      (two (n / 10 ^ 9 / 3600) ++ 58 :: (two (n / 10 ^ 9 / 60 % 60) ++ 58 :: (two (n / 10 ^ 9 % 60) ++
      (if n % 10 ^ 9 = 0 then [] else 46 :: trimZeroes (nine (n % 10 ^ 9)))))))), ?_, ?_⟩
    · unfold timeText
      simp only [List.append_assoc, List.cons_append]
    intro z hzh
    simp only [four, two, List.cons_append, List.nil_append]
    generalize n / 10 ^ 9 = s at *
    generalize n % 10 ^ 9 = f at *
    rw [parseZTime]
    rw [num2_two (n := (civil d).1 / 100) (by omega), num2_two (n := (civil d).1 % 100) (by omega),
      num2_two (n := (civil d).2.1) (by omega), num2_two (n := (civil d).2.2) c7,
      getHour_two (n := s / 3600) (by omega)]
    simp only [Option.bind_eq_bind, Option.bind_some, parseClock,
      num2_two (n := s / 60 % 60) (by omega), num2_two (n := s % 60) (by omega), Option.pure_def,
      parseFrac_frac hf hzh]
    cases parseZone z with
    | none => rfl
    | some o =>
      simp only [Option.bind_some, Option.map_some]
      have hy : 100 * ((civil d).1 / 100) + (civil d).1 % 100 = (civil d).1 := Nat.div_add_mod _ _
      rw [hy, if_neg (by omega), c6]
      rw [ht]
      have e : s / 3600 * 3600 + s / 60 % 60 * 60 + s % 60 = s := by omega
      rw [e, Nat.mul_comm, hv]
  · simp at h

/-- What is read from the text of a time with a zone. -/
theorem parseZTime_fmtZTime {z : ZTime} {b : Bytes} (h : fmtZTime z = some b) :
    parseZTime b = if z.zone.natAbs < 6000 then some z else none := by
  unfold fmtZTime at h
  simp only [Option.map_eq_some_iff] at h
  obtain ⟨b', h1, rfl⟩ := h
  obtain ⟨w, rfl, h2⟩ := parseZTime_zone h1
  rw [List.dropLast_concat, h2 _ (fmtZone_head _), parseZone_fmtZone]
  split
  · simp only [Option.map_some]
    congr 1
    ext
    · simp [ZTime.clock, minuteNs]
    · rfl
  · rfl

theorem daysBefore_lt {y m d : Nat} (hy : y ≤ 9999) (hm : 1 ≤ m) (hm' : m ≤ 12) (hd : d ≤ daysIn y m)
    (hd' : 1 ≤ d) : daysBeforeYear y + daysBeforeMonth y m + (d - 1) < 3652425 := by
  have h1 : daysBeforeMonth y m + daysIn y m ≤ daysBeforeMonth y 13 := by
    rw [← daysBeforeMonth_succ y m hm]
    unfold daysBeforeMonth
    have : ∀ (k : Nat) (f : Nat → Nat), ((List.range m).map f).sum ≤ ((List.range (m + k)).map f).sum := by
      intro k f
      rw [List.range_add, List.map_append, List.sum_append]
      omega
    have h := this (12 - m) fun i => daysIn y (i + 1)
    rw [show m + (12 - m) = 12 by omega] at h
    exact h
  have h2 := daysBeforeYear_succ y
  rw [daysBeforeMonth_13] at h1
  have h3 : daysBeforeYear (y + 1) ≤ 3652425 := by unfold daysBeforeYear; omega
  omega

theorem num2_le {a b : UInt8} {n : Nat} (h : num2 a b = some n) : n ≤ 99 := by
  have hd : ∀ c k, dig c = some k → k ≤ 9 := by
    intro c k hk
    unfold dig at hk
    split at hk
    · rename_i hc
      simp only [Option.some.injEq] at hk
      have : 48 ≤ c.toNat ∧ c.toNat ≤ 57 := by
        simpa [isDigit, UInt8.le_iff_toNat_le] using hc
      omega
    · cases hk
  simp only [num2, Option.bind_eq_bind, Option.bind_eq_some_iff, Option.pure_def, Option.some.injEq] at h
  obtain ⟨x, hx, y, hy, rfl⟩ := h
  have := hd _ _ hx
  have := hd _ _ hy
  omega

theorem atoi2_le {a b : UInt8} {n : Int} (h : atoi2 a b = some n) : n.natAbs ≤ 99 := by
  have hd : ∀ c k, dig c = some k → k ≤ 9 := by
    intro c k hk
    have : num2 48 c = some k := by
      have : dig 48 = some 0 := rfl
      simp [num2, hk, this]
    unfold dig at hk
    split at hk
    · rename_i hc
      simp only [Option.some.injEq] at hk
      have : 48 ≤ c.toNat ∧ c.toNat ≤ 57 := by
        simpa [isDigit, UInt8.le_iff_toNat_le] using hc
      omega
    · cases hk
  unfold atoi2 at h
  split at h
  · simp only [Option.map_eq_some_iff] at h
    obtain ⟨k, hk, rfl⟩ := h
    simp only [Option.bind_eq_bind, Option.bind_eq_some_iff, Option.pure_def, Option.some.injEq] at hk
    obtain ⟨k, hk, rfl⟩ := hk
    have := hd _ _ hk
    omega
  · split at h
    · simp only [Option.map_eq_some_iff] at h
      obtain ⟨k, hk, rfl⟩ := h
      simp only [Option.bind_eq_bind, Option.bind_eq_some_iff, Option.pure_def, Option.some.injEq] at hk
      obtain ⟨k, hk, rfl⟩ := hk
      have := hd _ _ hk
      omega
    · simp only [Option.map_eq_some_iff] at h
      obtain ⟨k, hk, rfl⟩ := h
      simp only [Option.bind_eq_bind, Option.bind_eq_some_iff, Option.pure_def, Option.some.injEq] at hk
      obtain ⟨k, hk, rfl⟩ := hk
      have := num2_le hk
      omega

theorem parseZone_le {z : Bytes} {o : Int} (h : parseZone z = some o) : o.natAbs ≤ 6039 := by
  unfold parseZone at h
  split at h
  · cases h; decide
  · simp only [Option.bind_eq_bind, Option.bind_eq_some_iff] at h
    obtain ⟨x, hx, y, hy, h⟩ := h
    have := atoi2_le hx
    have := atoi2_le hy
    split at h
    · cases h; omega
    · split at h
      · cases h; omega
      · cases h
  · cases h

theorem digits_lt (ds : Bytes) (h : ∀ c ∈ ds, isDigit c = true) (a : Nat) :
    ds.foldl (fun a (c : UInt8) => 10 * a + (c.toNat - 48)) a < (a + 1) * 10 ^ ds.length := by
  induction ds generalizing a with
  | nil => simp
  | cons c ds ih =>
    have hc : 48 ≤ c.toNat ∧ c.toNat ≤ 57 := by
      simpa [isDigit, UInt8.le_iff_toNat_le] using h c (by simp)
    have h1 := ih (fun x hx => h x (by simp [hx])) (10 * a + (c.toNat - 48))
    rw [List.foldl_cons, List.length_cons, pow_succ]
    refine lt_of_lt_of_le h1 ?_
    calc (10 * a + (c.toNat - 48) + 1) * 10 ^ ds.length ≤ (10 * (a + 1)) * 10 ^ ds.length :=
          Nat.mul_le_mul_right _ (by omega)
      _ = (a + 1) * (10 ^ ds.length * 10) := by ring

theorem parseFrac_lt {b r : Bytes} {f : Nat} (h : parseFrac b = some (f, r)) : f < 10 ^ 9 := by
  unfold parseFrac at h
  split at h
  · rename_i r'
    simp only at h
    split at h
    · cases h
    · rename_i hv
      simp only [Option.some.injEq, Prod.mk.injEq] at h
      obtain ⟨rfl, -⟩ := h
      have hd := digits_lt (r'.takeWhile isDigit) (fun c hc => mem_takeWhile hc) 0
      rw [not_or] at hv
      generalize (r'.takeWhile isDigit).foldl (fun a (c : UInt8) => 10 * a + (c.toNat - 48)) 0 = v at *
      generalize (r'.takeWhile isDigit).length = l at *
      by_cases hl : l ≤ 9
      · have h9 : (10 : Nat) ^ 9 = 10 ^ l * 10 ^ (9 - l) := by rw [← pow_add]; congr 1; omega
        rw [h9]
        exact Nat.mul_lt_mul_of_pos_right (by simpa using hd) (by positivity)
      · rw [show 9 - l = 0 by omega, pow_zero, Nat.mul_one]
        exact Nat.lt_of_not_le hv.2
  · simp only [Option.some.injEq, Prod.mk.injEq] at h
    omega

/-- A time that was read is one that can be written. -/
theorem fmtZTime_of_parse {b : Bytes} {z : ZTime} (h : parseZTime b = some z) :
    Dated z.clock ∧ z.zone.natAbs ≤ 6039 := by
  unfold parseZTime at h
  split at h
  · simp only [Option.bind_eq_bind, Option.bind_eq_some_iff] at h
    obtain ⟨yh, h1, yl, h2, m, h3, d, h4, ⟨hh, r2⟩, h5, ⟨n, s, r3⟩, h6, ⟨f, zz⟩, h7, o, h8, h⟩ := h
    simp only at h h6 h7 h8
    have e1 := num2_le h1
    have e2 := num2_le h2
    split at h
    · cases h
    · rename_i hc
      simp only [not_or, not_lt, not_le] at hc
      obtain ⟨c1, c2, c3, c4, c5, c6, c7⟩ := hc
      simp only [Option.some.injEq] at h
      subst h
      have hd := daysBefore_lt (y := 100 * yh + yl) (by omega) c1 c2 c4 c3
      have hf := parseFrac_lt h7
      refine ⟨?_, parseZone_le h8⟩
      have hn : (hh * 3600 + n * 60 + s) * 10 ^ 9 + f < 86400 * 10 ^ 9 := by
        have : hh * 3600 + n * 60 + s ≤ 86399 := by omega
        omega
      generalize daysBeforeYear (100 * yh + yl) + daysBeforeMonth (100 * yh + yl) m + (d - 1) = D at *
      generalize (hh * 3600 + n * 60 + s) * 10 ^ 9 + f = N at *
      have e : (ZTime.mk (((D : Int) - 366) * dayNs + (N : Int) - o * (60 * 10 ^ 9)) o).clock =
          ((D : Int) - 366) * dayNs + N := by
        simp [ZTime.clock, minuteNs]
      rw [e]
      unfold Dated dayNs
      constructor <;> omega
  · cases h

theorem fmtTime_dated {t : Int} : (fmtTime t).isSome = true ↔ Dated t := by
  rw [← timeC_writes]
  simp [Codec.Writes, timeC]

/-- Marshalling succeeds exactly in the years 0 to 9999 of the zone. -/
@[simp] theorem ztimeC_writes (z : ZTime) : ztimeC.Writes z ↔ Dated z.clock := by
  rw [← fmtTime_dated]
  simp [Codec.Writes, ztimeC, fmtZTime]

/-- The bytes of a written time. -/
theorem fmtZTime_lit {z : ZTime} {b : Bytes} (h : fmtZTime z = some b) : IsStrLit b := by
  unfold fmtZTime at h
  simp only [Option.map_eq_some_iff] at h
  obtain ⟨b', h1, rfl⟩ := h
  have hb := fmtTime_bytes h1
  have hn : ∀ n, ∀ c ∈ natDec n, isDigit c = true := fun n => natDec_digits n
  refine (prefixable_clock _ ?_).isStrLit
  intro c hc
  rcases List.mem_append.mp hc with hc | hc
  · exact hb c (List.mem_of_mem_dropLast hc)
  · have hp : ∀ n, ∀ c ∈ padTwo n, isDigit c = true := by
      intro n c hc
      unfold padTwo at hc
      split at hc
      · exact two_digits _ _ hc
      · exact natDec_digits _ _ hc
    unfold fmtZone at hc
    split at hc
    · simp only [List.mem_singleton] at hc
      subst hc; simp
    · simp only [List.mem_cons, List.mem_append] at hc
      rcases hc with hc | hc | hc | hc
      · split at hc <;> (subst hc; simp)
      · exact .inl (hp _ _ hc)
      · subst hc; simp
      · exact .inl (hp _ _ hc)

theorem ztimeC_good {z : ZTime} (h : z.zone.natAbs < 6000) : ztimeC.Good z := by
  intro j hj
  simp only [ztimeC, Option.map_eq_some_iff] at hj
  obtain ⟨b, h1, rfl⟩ := hj
  refine ⟨fmtZTime_lit h1, fun old => ?_⟩
  have := parseZTime_fmtZTime h1
  rw [if_pos h] at this
  exact this

end Verif
