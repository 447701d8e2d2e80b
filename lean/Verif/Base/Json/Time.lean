import Verif.Base.Json.Str
import Mathlib.Data.Nat.Find
import Mathlib.Tactic.IntervalCases

/-!
# Times in JSON

A `time.Time` is the number of nanoseconds since January 1 of year 1, UTC, which is the zero value of
the type. `MarshalJSON` writes it as RFC 3339 with up to nine digits of fraction and refuses years
outside of 0 to 9999; all times that the module creates are in UTC, so the zone is `Z`.
`UnmarshalJSON` reads RFC 3339 from the literal, without looking at escapes. It is modelled as in
Go 1.13 to 1.15, which accept more than RFC 3339 (see `parseTime`).
-/

namespace Verif

/-- The days of the years before `y`, from year 0. -/
def daysBeforeYear (y : Nat) : Nat := 365 * y + (y + 3) / 4 - (y + 99) / 100 + (y + 399) / 400

/-- The Gregorian leap years. -/
def isLeap (y : Nat) : Bool := y % 4 == 0 && (y % 100 != 0 || y % 400 == 0)

/-- The days of a month, from 1. -/
def daysIn (y m : Nat) : Nat :=
  match m with
  | 2 => if isLeap y then 29 else 28
  | 4 => 30
  | 6 => 30
  | 9 => 30
  | 11 => 30
  | _ => 31

/-- The days of a year before a month, from 1. -/
def daysBeforeMonth (y m : Nat) : Nat := ((List.range (m - 1)).map fun i => daysIn y (i + 1)).sum

/-- Year, month and day of a number of days since January 1 of year 0. -/
def civil (d : Nat) : Nat × Nat × Nat :=
  let y := Nat.findGreatest (fun y => daysBeforeYear y ≤ d) 9999
  let e := d - daysBeforeYear y
  let m := Nat.findGreatest (fun m => daysBeforeMonth y m ≤ e) 12
  (y, m, e - daysBeforeMonth y m + 1)

/-- Two digits. -/
def two (n : Nat) : Bytes := [UInt8.ofNat (48 + n / 10 % 10), UInt8.ofNat (48 + n % 10)]

/-- Four digits. -/
def four (n : Nat) : Bytes := two (n / 100) ++ two (n % 100)

/-- Nine digits. -/
def nine (n : Nat) : Bytes :=
  UInt8.ofNat (48 + n / 10 ^ 8 % 10) :: (four (n / 10 ^ 4 % 10 ^ 4) ++ four (n % 10 ^ 4))

/-- Without trailing zeroes. -/
def trimZeroes (b : Bytes) : Bytes := (b.reverse.dropWhile (· == 48)).reverse

/-- The nanoseconds of a day. -/
def dayNs : Int := 86400 * 10 ^ 9

/-- The text of a number of days since January 1 of year 0 and nanoseconds of the day. -/
def timeText (d n : Nat) : Bytes :=
  let c := civil d
  let s := n / 10 ^ 9
  let f := n % 10 ^ 9
  four c.1 ++ 45 :: (two c.2.1 ++ 45 :: (two c.2.2 ++ 84 :: (two (s / 3600) ++ 58 ::
    (two (s / 60 % 60) ++ 58 :: (two (s % 60) ++
      ((if f = 0 then [] else 46 :: trimZeroes (nine f)) ++ [90]))))))

/-- `time.Time.MarshalJSON`, without the quotes; `none` when the year is not in 0 to 9999. Year 0 has
366 days. -/
def fmtTime (t : Int) : Option Bytes :=
  let d := t / dayNs + 366
  if 0 ≤ d ∧ d < 3652425 then some (timeText d.toNat (t % dayNs).toNat) else none

/-- The value of a digit. -/
def dig (c : UInt8) : Option Nat := if isDigit c then some (c.toNat - 48) else none

/-- The value of two digits. -/
def num2 (a b : UInt8) : Option Nat := do return 10 * (← dig a) + (← dig b)

/-- One or two digits, as many as there are (`getnum` with `fixed` false in `time/format.go`), and the
text behind them. -/
def getHour : Bytes → Option (Nat × Bytes)
  | a :: b :: r =>
    match dig a, dig b with
    | none, _ => none
    | some x, none => some (x, b :: r)
    | some x, some y => some (10 * x + y, r)
  | [a] => (dig a).map fun x => (x, [])
  | [] => none

/-- The fraction of a second in nanoseconds, and the text behind it (`parseNanoseconds`): up to nine
digits are scaled, more digits are taken as they are when their value is below `10^9`. -/
def parseFrac : Bytes → Option (Nat × Bytes)
  | 46 :: r =>
    let ds := r.takeWhile isDigit
    let v := ds.foldl (fun a (c : UInt8) => 10 * a + (c.toNat - 48)) 0
    if ds = [] ∨ 10 ^ 9 ≤ v then none
    else some (v * 10 ^ (9 - ds.length), r.dropWhile isDigit)
  | r => some (0, r)

/-- Two digits, or a sign and a digit (`atoi`). -/
def atoi2 (a b : UInt8) : Option Int :=
  if a == 45 then (dig b).map fun n => -(n : Int)
  else if a == 43 then (dig b).map fun n => (n : Int)
  else (num2 a b).map fun n => (n : Int)

/-- The offset of the zone in minutes; the numbers are not checked. -/
def parseZone : Bytes → Option Int
  | [90] => some 0
  | [g, a, b, 58, c, d] => do
    let h ← atoi2 a b
    let m ← atoi2 c d
    if g == 43 then some (h * 60 + m)
    else if g == 45 then some (-(h * 60 + m))
    else none
  | _ => none

/-- The parts of the time of day: minute, second, and the text behind them. -/
def parseClock : Bytes → Option (Nat × Nat × Bytes)
  | 58 :: n1 :: n2 :: 58 :: s1 :: s2 :: rest => do return (← num2 n1 n2, ← num2 s1 s2, rest)
  | _ => none

/-- `time.Time.UnmarshalJSON` on the literal without quotes: `time.Parse` of Go 1.13 to 1.15 with the
layout of RFC 3339, which accepts more than that: hours of one digit, any offset of the zone, and more
than nine digits behind the point. -/
def parseTime : Bytes → Option Int
  | y1 :: y2 :: y3 :: y4 :: 45 :: m1 :: m2 :: 45 :: d1 :: d2 :: 84 :: r1 => do
    let yh ← num2 y1 y2
    let yl ← num2 y3 y4
    let m ← num2 m1 m2
    let d ← num2 d1 d2
    let (h, r2) ← getHour r1
    let (n, s, r3) ← parseClock r2
    let (f, z) ← parseFrac r3
    let o ← parseZone z
    let y := 100 * yh + yl
    if m < 1 ∨ 12 < m ∨ d < 1 ∨ daysIn y m < d ∨ 24 ≤ h ∨ 60 ≤ n ∨ 60 ≤ s then none
    else
      let days : Int := (daysBeforeYear y + daysBeforeMonth y m + (d - 1) : Nat) - 366
      some (days * dayNs + ((h * 3600 + n * 60 + s) * 10 ^ 9 + f : Nat) - o * (60 * 10 ^ 9))
  | _ => none

/-! ## What was written is read back -/

theorem daysBeforeYear_succ (y : Nat) :
    daysBeforeYear (y + 1) = daysBeforeYear y + if isLeap y then 366 else 365 := by
  have h4 : (y + 1 + 3) / 4 = (y + 3) / 4 + if y % 4 = 0 then 1 else 0 := by split <;> omega
  have h100 : (y + 1 + 99) / 100 = (y + 99) / 100 + if y % 100 = 0 then 1 else 0 := by
    split <;> omega
  have h400 : (y + 1 + 399) / 400 = (y + 399) / 400 + if y % 400 = 0 then 1 else 0 := by
    split <;> omega
  have hle : (y + 99) / 100 ≤ 365 * y + (y + 3) / 4 := by omega
  have hd1 : y % 400 = 0 → y % 100 = 0 := by omega
  have hd2 : y % 100 = 0 → y % 4 = 0 := by omega
  unfold daysBeforeYear isLeap
  rw [h4, h100, h400]
  by_cases a : y % 4 = 0 <;> by_cases b : y % 100 = 0 <;> by_cases c : y % 400 = 0
  all_goals first
    | (exfalso; tauto)
    | (simp [a, b, c]; omega)

theorem daysBeforeMonth_13 (y : Nat) : daysBeforeMonth y 13 = if isLeap y then 366 else 365 := by
  cases h : isLeap y <;> simp [daysBeforeMonth, List.range, List.range.loop, daysIn, h]

theorem daysBeforeMonth_succ (y m : Nat) (h : 1 ≤ m) :
    daysBeforeMonth y (m + 1) = daysBeforeMonth y m + daysIn y m := by
  obtain ⟨m, rfl⟩ : ∃ k, m = k + 1 := ⟨m - 1, by omega⟩
  simp [daysBeforeMonth, List.range_succ]

/-- The date of a day of the years 0 to 9999 is a date, and the day is the day of that date. -/
theorem civil_spec {d : Nat} (h : d < 3652425) :
    (civil d).1 ≤ 9999 ∧ 1 ≤ (civil d).2.1 ∧ (civil d).2.1 ≤ 12 ∧ 1 ≤ (civil d).2.2 ∧
      (civil d).2.2 ≤ daysIn (civil d).1 (civil d).2.1 ∧
      daysBeforeYear (civil d).1 + daysBeforeMonth (civil d).1 (civil d).2.1 + ((civil d).2.2 - 1) =
        d := by
  unfold civil
  simp only
  set y := Nat.findGreatest (fun y => daysBeforeYear y ≤ d) 9999 with hy
  have y1 : y ≤ 9999 := Nat.findGreatest_le _
  have y2 : daysBeforeYear y ≤ d :=
    Nat.findGreatest_spec (P := fun y => daysBeforeYear y ≤ d) (m := 0) (by omega)
      (by simp [daysBeforeYear])
  have y3 : d < daysBeforeYear (y + 1) := by
    by_cases hlt : y + 1 ≤ 9999
    · have := Nat.findGreatest_is_greatest (P := fun y => daysBeforeYear y ≤ d) (n := 9999)
        (k := y + 1) (by omega) hlt
      omega
    · have : y = 9999 := by omega
      rw [this]
      have e : daysBeforeYear (9999 + 1) = 3652425 := by decide
      omega
  rw [daysBeforeYear_succ] at y3
  set e := d - daysBeforeYear y with he
  have e1 : e < daysBeforeMonth y 13 := by rw [daysBeforeMonth_13]; omega
  set m := Nat.findGreatest (fun m => daysBeforeMonth y m ≤ e) 12 with hm
  have m1 : m ≤ 12 := Nat.findGreatest_le _
  have m2 : daysBeforeMonth y m ≤ e :=
    Nat.findGreatest_spec (P := fun m => daysBeforeMonth y m ≤ e) (m := 1) (by omega)
      (by simp [daysBeforeMonth])
  have m0 : 1 ≤ m :=
    Nat.le_findGreatest (P := fun m => daysBeforeMonth y m ≤ e) (by omega)
      (by simp [daysBeforeMonth])
  have m3 : e < daysBeforeMonth y (m + 1) := by
    by_cases hlt : m + 1 ≤ 12
    · have := Nat.findGreatest_is_greatest (P := fun m => daysBeforeMonth y m ≤ e) (n := 12)
        (k := m + 1) (by omega) hlt
      omega
    · have : m = 12 := by omega
      rw [this]
      exact e1
  rw [daysBeforeMonth_succ y m m0] at m3
  refine ⟨y1, m0, m1, by omega, by omega, by omega⟩

theorem dig_ofNat {n : Nat} (h : n < 10) : dig (UInt8.ofNat (48 + n)) = some n := by
  interval_cases n <;> rfl

theorem isDigit_ofNat {n : Nat} (h : n < 10) : isDigit (UInt8.ofNat (48 + n)) = true := by
  interval_cases n <;> rfl

theorem num2_two {n : Nat} (h : n < 100) :
    num2 (UInt8.ofNat (48 + n / 10 % 10)) (UInt8.ofNat (48 + n % 10)) = some n := by
  unfold num2
  rw [dig_ofNat (by omega), dig_ofNat (by omega)]
  simp only [Option.bind_eq_bind, Option.bind_some, Option.pure_def]
  congr 1
  omega

theorem getHour_two {n : Nat} (h : n < 100) (r : Bytes) :
    getHour (UInt8.ofNat (48 + n / 10 % 10) :: UInt8.ofNat (48 + n % 10) :: r) = some (n, r) := by
  simp only [getHour, dig_ofNat (n := n / 10 % 10) (by omega), dig_ofNat (n := n % 10) (by omega),
    Option.some.injEq, Prod.mk.injEq, and_true]
  omega

theorem trimZeroes_spec (b : Bytes) : ∃ k, b = trimZeroes b ++ List.replicate k 48 ∧
    (∀ c ∈ trimZeroes b, c ∈ b) := by
  unfold trimZeroes
  refine ⟨(b.reverse.takeWhile (· == 48)).length, ?_, ?_⟩
  · have h1 : b.reverse.takeWhile (· == 48) =
        List.replicate (b.reverse.takeWhile (· == 48)).length 48 := by
      apply List.eq_replicate_of_mem
      intro c hc
      have := mem_takeWhile hc
      simpa using this
    have h2 := List.takeWhile_append_dropWhile (p := (· == 48)) (l := b.reverse)
    have h3 := congrArg List.reverse h2
    rw [List.reverse_append, List.reverse_reverse, h1, List.reverse_replicate] at h3
    exact h3.symm
  · intro c hc
    rw [List.mem_reverse] at hc
    exact List.mem_reverse.mp ((List.dropWhile_suffix _).mem hc)

theorem nine_length (n : Nat) : (nine n).length = 9 := by simp [nine, four, two]

theorem nine_digits (n : Nat) : ∀ c ∈ nine n, isDigit c = true := by
  intro c hc
  simp only [nine, four, two, List.mem_cons, List.mem_append, List.not_mem_nil, or_false] at hc
  rcases hc with rfl | ((rfl | rfl) | rfl | rfl) | (rfl | rfl) | rfl | rfl <;>
    exact isDigit_ofNat (by omega)

theorem digitVal {n : Nat} (h : n < 10) : (UInt8.ofNat (48 + n)).toNat - 48 = n := by
  rw [digitByte_toNat h]; omega

theorem nine_value {n : Nat} (h : n < 10 ^ 9) :
    (nine n).foldl (fun a c => 10 * a + (c.toNat - 48)) 0 = n := by
  have e : ∀ k, (UInt8.ofNat (48 + k % 10)).toNat - 48 = k % 10 :=
    fun k => digitVal (Nat.mod_lt _ (by norm_num))
  simp only [nine, four, two, List.cons_append, List.nil_append, List.foldl_cons, List.foldl_nil, e]
  omega

theorem parseFrac_frac {n : Nat} (h : n < 10 ^ 9) {z : Bytes}
    (hz : ∀ c ∈ z.head?, isDigit c = false ∧ c ≠ 46) :
    parseFrac ((if n = 0 then [] else 46 :: trimZeroes (nine n)) ++ z) = some (n, z) := by
  have hz1 : z.takeWhile isDigit = [] := by
    cases z with
    | nil => rfl
    | cons c z => simp [(hz c rfl).1]
  have hz2 : z.dropWhile isDigit = z := by
    cases z with
    | nil => rfl
    | cons c z => simp [(hz c rfl).1]
  split
  · rename_i h0
    subst h0
    rw [List.nil_append, parseFrac.eq_2]
    rintro r rfl
    exact (hz 46 rfl).2 rfl
  · rename_i h0
    obtain ⟨k, h1, h2⟩ := trimZeroes_spec (nine n)
    set b := trimZeroes (nine n) with hb
    have hd : ∀ c ∈ b, isDigit c = true := fun c hc => nine_digits n c (h2 c hc)
    have hne : b ≠ [] := by
      intro e
      rw [e, List.nil_append] at h1
      have hl := congrArg List.length h1
      rw [nine_length, List.length_replicate] at hl
      have hv := nine_value h
      rw [h1, ← hl] at hv
      simp [List.replicate] at hv
      omega
    have t1 : (b ++ z).takeWhile isDigit = b := by
      rw [List.takeWhile_append_of_pos hd, hz1, List.append_nil]
    have t2 : (b ++ z).dropWhile isDigit = z := by
      rw [List.dropWhile_append_of_pos hd, hz2]
    have hl := congrArg List.length h1
    rw [nine_length, List.length_append, List.length_replicate] at hl
    have t4 : ∀ (k : Nat) (a : Nat), (List.replicate k (48 : UInt8)).foldl
        (fun a c => 10 * a + (c.toNat - 48)) a = a * 10 ^ k := by
      intro k
      induction k with
      | zero => simp
      | succ k ih => intro a; rw [List.replicate_succ, List.foldl_cons, ih]; simp [pow_succ]; ring
    have t5 : b.foldl (fun a (c : UInt8) => 10 * a + (c.toNat - 48)) 0 * 10 ^ k = n := by
      have := nine_value h
      rw [h1, List.foldl_append, t4] at this
      exact this
    have t6 : 9 - b.length = k := by omega
    have t7 : b.foldl (fun a (c : UInt8) => 10 * a + (c.toNat - 48)) 0 ≤ n := by
      rw [← t5]
      exact Nat.le_mul_of_pos_right _ (by positivity)
    simp only [List.cons_append, parseFrac, t1, t2, t6, t5]
    rw [if_neg (by
      rintro (h | h)
      · exact hne h
      · omega)]

theorem parseZone_head {z : Bytes} {o : Int} (h : parseZone z = some o) :
    ∀ c ∈ z.head?, isDigit c = false ∧ c ≠ 46 := by
  unfold parseZone at h
  split at h
  · rintro c ⟨⟩; decide
  · rename_i g a b c d
    simp only [Option.bind_eq_bind, Option.bind_eq_some_iff] at h
    obtain ⟨_, -, _, -, h⟩ := h
    rintro c' ⟨⟩
    split at h
    · rename_i hg
      rw [eq_of_beq hg]; decide
    · split at h
      · rename_i hg
        rw [eq_of_beq hg]; decide
      · cases h
  · cases h

/-- A time of the years 0 to 9999 is written with a `Z` at the end; with the text of another zone there,
it is read as the time that has these digits in that zone. -/
theorem parseTime_zone {t : Int} {b : Bytes} (h : fmtTime t = some b) : ∃ w, b = w ++ [90] ∧
    ∀ z o, parseZone z = some o → parseTime (w ++ z) = some (t - o * (60 * 10 ^ 9)) := by
  unfold fmtTime at h
  simp only at h
  split at h
  · rename_i hd
    simp only [Option.some.injEq] at h
    subst h
    obtain ⟨d, hd'⟩ : ∃ d : Nat, t / dayNs + 366 = d := ⟨(t / dayNs + 366).toNat, by omega⟩
    have hn0 : 0 ≤ t % dayNs := Int.emod_nonneg _ (by norm_num [dayNs])
    have hn1 : t % dayNs < dayNs := Int.emod_lt_of_pos _ (by norm_num [dayNs])
    obtain ⟨n, hn⟩ : ∃ n : Nat, t % dayNs = n := ⟨(t % dayNs).toNat, by omega⟩
    have ht : t = ((d : Int) - 366) * dayNs + n := by
      have := Int.mul_ediv_add_emod t dayNs
      rw [← hn, ← hd']
      linarith
    rw [hd', hn]
    simp only [Int.toNat_natCast]
    rw [hd'] at hd
    rw [hn] at hn1
    have hnlt : n < 86400 * 10 ^ 9 := by
      have : (n : Int) < 86400 * 10 ^ 9 := hn1
      exact_mod_cast this
    clear hn hd' hn0 hn1
    have hdlt : d < 3652425 := by omega
    obtain ⟨c1, c2, c3, c4, c5, c6⟩ := civil_spec hdlt
    have c7 : (civil d).2.2 < 100 := by
      have : daysIn (civil d).1 (civil d).2.1 ≤ 31 := by
        unfold daysIn
        split
        · split <;> omega
        all_goals omega
      omega
    have hs : n / 10 ^ 9 < 86400 := Nat.div_lt_of_lt_mul (by rwa [Nat.mul_comm])
    have hv := Nat.div_add_mod n (10 ^ 9)
    have hf : n % 10 ^ 9 < 10 ^ 9 := Nat.mod_lt _ (by norm_num)
    refine ⟨four (civil d).1 ++ 45 :: (two (civil d).2.1 ++ 45 :: (two (civil d).2.2 ++ 84 ::
      (two (n / 10 ^ 9 / 3600) ++ 58 :: (two (n / 10 ^ 9 / 60 % 60) ++ 58 :: (two (n / 10 ^ 9 % 60) ++
      (if n % 10 ^ 9 = 0 then [] else 46 :: trimZeroes (nine (n % 10 ^ 9)))))))), ?_, ?_⟩
    · unfold timeText
      simp only [List.append_assoc, List.cons_append]
    intro z o hzo
    have hzh := parseZone_head hzo
    simp only [four, two, List.cons_append, List.nil_append]
    generalize n / 10 ^ 9 = s at *
    generalize n % 10 ^ 9 = f at *
    rw [parseTime]
    rw [num2_two (n := (civil d).1 / 100) (by omega), num2_two (n := (civil d).1 % 100) (by omega),
      num2_two (n := (civil d).2.1) (by omega), num2_two (n := (civil d).2.2) c7,
      getHour_two (n := s / 3600) (by omega)]
    simp only [Option.bind_eq_bind, Option.bind_some, parseClock,
      num2_two (n := s / 60 % 60) (by omega), num2_two (n := s % 60) (by omega), Option.pure_def,
      parseFrac_frac hf hzh, hzo]
    have hy : 100 * ((civil d).1 / 100) + (civil d).1 % 100 = (civil d).1 := Nat.div_add_mod _ _
    rw [hy, if_neg (by omega), c6]
    rw [ht]
    refine congrArg some ?_
    have e : s / 3600 * 3600 + s / 60 % 60 * 60 + s % 60 = s := by omega
    rw [e, Nat.mul_comm, hv]
  · simp at h

/-- Times of the years 0 to 9999 are read back as they were written. -/
theorem parseTime_fmtTime {t : Int} {b : Bytes} (h : fmtTime t = some b) : parseTime b = some t := by
  obtain ⟨w, rfl, h1⟩ := parseTime_zone h
  rw [h1 [90] 0 rfl]
  simp

/-- Digits and the signs of times are plain characters of a string literal. -/
theorem prefixable_clock (w : Bytes) (hw : ∀ c ∈ w, isDigit c = true ∨ c = 45 ∨ c = 84 ∨ c = 58 ∨ c = 46 ∨
    c = 90 ∨ c = 43) : Prefixable w := by
  induction w with
  | nil => exact prefixable_nil
  | cons c w ih =>
    refine Prefixable.append (v := [c]) ?_ (ih fun x hx => hw x (by simp [hx]))
    rcases hw c (by simp) with h | rfl | rfl | rfl | rfl | rfl | rfl
    · have h1 : 48 ≤ c.toNat ∧ c.toNat ≤ 57 := by
        simpa [isDigit, UInt8.le_iff_toNat_le] using h
      refine prefixable_plain ?_ ?_ ?_
      · rw [UInt8.lt_iff_toNat_lt]; simp; omega
      · rintro rfl; simp at h1
      · rintro rfl; simp at h1
    all_goals exact prefixable_plain (by decide) (by decide) (by decide)

theorem two_digits (n : Nat) : ∀ c ∈ two n, isDigit c = true := by
  intro c hc
  simp only [two, List.mem_cons, List.not_mem_nil, or_false] at hc
  rcases hc with rfl | rfl <;> exact isDigit_ofNat (by omega)

/-- The bytes of a written time. -/
theorem fmtTime_bytes {t : Int} {b : Bytes} (h : fmtTime t = some b) :
    ∀ c ∈ b, isDigit c = true ∨ c = 45 ∨ c = 84 ∨ c = 58 ∨ c = 46 ∨ c = 90 ∨ c = 43 := by
  unfold fmtTime at h
  simp only at h
  split at h
  · simp only [Option.some.injEq] at h
    subst h
    have h2 := two_digits
    intro c hc
    unfold timeText at hc
    simp only [four, List.mem_append, List.mem_cons, List.not_mem_nil, or_false] at hc
    rcases hc with (hc | hc) | hc | hc | hc | hc | hc | hc | hc | hc | hc | hc | hc | hc
    all_goals first
      | exact .inl (h2 _ _ hc)
      | (subst hc; simp)
      | skip
    split at hc
    · simp at hc
    · rcases List.mem_cons.mp hc with rfl | hc
      · simp
      · obtain ⟨k, -, h3⟩ := trimZeroes_spec (nine ((t % dayNs).toNat % 10 ^ 9))
        exact .inl (nine_digits _ _ (h3 c hc))
  · simp at h

/-- Every byte of a written time is a plain character of a string literal. -/
theorem fmtTime_lit {t : Int} {b : Bytes} (h : fmtTime t = some b) : IsStrLit b :=
  (prefixable_clock b (fmtTime_bytes h)).isStrLit

end Verif
