import Verif.Props.DateTime

/-!
# C50 and C59: holidays and country names

C50 is false for instants before 1970 other than midnights: the key is truncated toward zero, so the
holiday of the following day is reported.
-/

namespace Feat

/-! ### The map built from the table -/

theorem setHoliday_find (m : UMap Int Str) (d : Int) (v : Str) (k : Int) :
    (setHoliday m d v).find? k = if k = d then some v else m.find? k := by
  unfold setHoliday
  by_cases h : (m.find? d).isSome
  · rw [if_pos h, UMap.find?_update]
    split_ifs with hk
    · subst hk
      obtain ⟨w, hw⟩ := Option.isSome_iff_exists.1 h
      rw [hw]; rfl
    · rfl
  · rw [if_neg h, UMap.find?_emplace]
    by_cases hk : k = d
    · subst hk
      have : m.find? k = none := by simpa using h
      rw [this]
    · rcases m.find? k with _ | w <;> simp [hk]

/-- The map holds the last name recorded for each date. -/
theorem holidayMap_find (table : List (Int × Str)) (d : Int) :
    (holidayMap table).find? d = recordedHoliday table d := by
  have gen : ∀ (l : List (Int × Str)) (m : UMap Int Str),
      (l.foldl (fun m e => setHoliday m e.1 e.2) m).find? d
        = (recordedHoliday l d).or (m.find? d) := by
    intro l
    induction l with
    | nil => intro m; rfl
    | cons e l ih =>
      intro m
      rw [List.foldl_cons, ih, setHoliday_find]
      unfold recordedHoliday
      rw [List.reverse_cons, List.find?_append]
      generalize l.reverse.find? (fun e => e.1 == d) = r
      rcases r with _ | w
      · by_cases he : e.1 = d
        · simp [he]
        · have : ¬ d = e.1 := fun h => he h.symm
          simp [he, this]
      · simp
  unfold holidayMap
  rw [gen, UMap.find?_empty, Option.or_none]

/-! ### The key -/

theorem truncRat_quot (quot : Int → Rat) (hq : IsDoubleQuotient quot) (s : Int)
    (h1 : -(2 ^ 34) ≤ s) (h2 : s ≤ 2 ^ 34) : truncRat (quot s) = s.tdiv 86400 := by
  by_cases hd : (86400 : Int) ∣ s
  · rw [hq.exact s h1 h2 hd]
    unfold truncRat
    have e : s.tdiv 86400 = s / 86400 := by
      obtain ⟨k, rfl⟩ := hd
      rw [Int.mul_tdiv_cancel_left _ (by decide), Int.mul_ediv_cancel_left _ (by decide)]
    rw [e]
    split_ifs
    · exact Int.floor_intCast _
    · exact Int.ceil_intCast _
  · have hc := hq.close s h1 h2
    have h1q : (-(2 ^ 34) : Rat) ≤ s := by exact_mod_cast h1
    have h2q : (s : Rat) ≤ 2 ^ 34 := by exact_mod_cast h2
    rcases Int.lt_or_le s 0 with hs | hs
    · -- negative: the quotient is below zero and rounds up
      have e : s.tdiv 86400 = -(-s / 86400) := by
        have h2 := Int.neg_tdiv (a := -s) (b := 86400)
        rw [Int.neg_neg, Int.tdiv_eq_ediv_of_nonneg (a := -s) (by omega)] at h2
        exact h2
      rw [e]
      obtain ⟨k, hk⟩ : ∃ k, -s / 86400 = k := ⟨_, rfl⟩
      rw [hk]
      have hr1 : s ≤ -(86400 * k) - 1 := by omega
      have hr2 : -(86400 * k) - 86399 ≤ s := by omega
      have hr1q : (s : Rat) ≤ -(86400 * k) - 1 := by exact_mod_cast hr1
      have hr2q : -(86400 * (k : Rat)) - 86399 ≤ s := by exact_mod_cast hr2
      have hsq : (s : Rat) < 0 := by exact_mod_cast hs
      rw [abs_of_neg (show (s : Rat) / 86400 < 0 by linarith)] at hc
      have hk0 : (0 : Rat) ≤ k := by
        have : 0 ≤ k := by omega
        exact_mod_cast this
      have ha := abs_le.1 (show |quot s - (s : Rat) / 86400| ≤ -((s : Rat) / 86400) / 2 ^ 53 by
        rw [le_div_iff₀ (by norm_num)]; exact hc)
      obtain ⟨a1, a2⟩ := ha
      have hlt : quot s < 0 := by
        have : -((s : Rat) / 86400) / 2 ^ 53 < -((s : Rat) / 86400) := by
          have : (0 : Rat) < -((s : Rat) / 86400) := by linarith
          rw [div_lt_iff₀ (by norm_num)]
          linarith
        linarith
      unfold truncRat
      rw [if_neg (by linarith), Int.ceil_eq_iff]
      push_cast
      constructor
      · linarith
      · linarith
    · rw [Int.tdiv_eq_ediv_of_nonneg hs]
      obtain ⟨k, hk⟩ : ∃ k, s / 86400 = k := ⟨_, rfl⟩
      rw [hk]
      have hr1 : 86400 * k + 1 ≤ s := by omega
      have hr2 : s ≤ 86400 * k + 86399 := by omega
      have hr1q : 86400 * (k : Rat) + 1 ≤ s := by exact_mod_cast hr1
      have hr2q : (s : Rat) ≤ 86400 * k + 86399 := by exact_mod_cast hr2
      have hsq : (0 : Rat) ≤ s := by exact_mod_cast hs
      rw [abs_of_nonneg (show 0 ≤ (s : Rat) / 86400 by linarith)] at hc
      have hk0 : (0 : Rat) ≤ k := by
        have : 0 ≤ k := by omega
        exact_mod_cast this
      have ha := abs_le.1 (show |quot s - (s : Rat) / 86400| ≤ ((s : Rat) / 86400) / 2 ^ 53 by
        rw [le_div_iff₀ (by norm_num)]; exact hc)
      obtain ⟨a1, a2⟩ := ha
      have hge : 0 ≤ quot s := by
        have : ((s : Rat) / 86400) / 2 ^ 53 ≤ ((s : Rat) / 86400) := by
          rw [div_le_iff₀ (by norm_num)]
          linarith
        linarith
      unfold truncRat
      rw [if_pos hge, Int.floor_eq_iff]
      constructor
      · linarith
      · linarith

/-! ### C50 -/

/-- C50 as stated: the holiday recorded for the midnight of the instant's own day. -/
def C50Claim : Prop :=
  ∀ (cal : Int → CDate) (gmtime : Int → Option Tm) (quot : Int → Rat), IsCalendar cal →
    IsGmtime cal gmtime → IsDoubleQuotient quot → ∀ (table : List (Int × Str)) (ns : Int),
    -(2 ^ 63) ≤ ns → ns < 2 ^ 63 →
      ∃ tp, DateTimeTransformer.execute gmtime quot (holidayMap table) ns = .ok tp ∧
        tp.holidayName = (recordedHoliday table (ns / dayNs * 86400)).getD ⟨[]⟩

/-- What the lookup does for every instant. -/
theorem execute_holiday (cal : Int → CDate) (gmtime : Int → Option Tm) (quot : Int → Rat)
    (hcal : IsCalendar cal) (hg : IsGmtime cal gmtime) (hq : IsDoubleQuotient quot)
    (table : List (Int × Str)) (ns : Int) (h1 : -(2 ^ 63) ≤ ns) (h2 : ns < 2 ^ 63) :
    ∃ tp, DateTimeTransformer.execute gmtime quot (holidayMap table) ns = .ok tp ∧
      tp.holidayName = (recordedHoliday table
        ((ns.tdiv 1000000000).tdiv 86400 * 86400)).getD ⟨[]⟩ ∧
      ∃ tp0, TimeParts.ofTime gmtime ns = .ok tp0 ∧
        tp = { tp0 with holidayName := tp.holidayName } := by
  obtain ⟨tp, t1, -, -, t4⟩ := ofTime_spec cal gmtime hcal hg ns h1 h2
  have hr := tdiv_range h1 h2
  have hkey : holidayKey quot ns = (ns.tdiv 1000000000).tdiv 86400 * 86400 := by
    unfold holidayKey
    simp only
    rw [truncRat_quot quot hq _ hr.1 hr.2]
  unfold DateTimeTransformer.execute
  rw [t1, hkey]
  simp only
  rw [holidayMap_find]
  have hsize : (holidayMap table).size = 0 → ∀ d, recordedHoliday table d = none := by
    intro h d
    rw [← holidayMap_find, UMap.find?_eq_none]
    unfold UMap.size at h
    rw [List.length_eq_zero_iff.1 h]
    simp
  by_cases hs : (holidayMap table).size = 0
  · rw [if_neg (by simpa using hs)]
    refine ⟨tp, rfl, ?_, tp, rfl, rfl⟩
    rw [hsize hs, t4]; rfl
  · rw [if_pos hs]
    rcases hf : recordedHoliday table ((ns.tdiv 1000000000).tdiv 86400 * 86400) with _ | name
    · exact ⟨tp, rfl, t4, tp, rfl, rfl⟩
    · exact ⟨_, rfl, rfl, tp, rfl, rfl⟩

/-- C50, proved part: instants from 1970 on, and earlier midnights.  The other fields are those of
the decomposition without holidays. -/
theorem C50_holiday_partial (cal : Int → CDate) (gmtime : Int → Option Tm) (quot : Int → Rat)
    (hcal : IsCalendar cal) (hg : IsGmtime cal gmtime) (hq : IsDoubleQuotient quot)
    (table : List (Int × Str)) (ns : Int) (h1 : -(2 ^ 63) ≤ ns) (h2 : ns < 2 ^ 63)
    (h : 0 ≤ ns ∨ dayNs ∣ ns) :
    ∃ tp, DateTimeTransformer.execute gmtime quot (holidayMap table) ns = .ok tp ∧
      tp.holidayName = (recordedHoliday table (ns / dayNs * 86400)).getD ⟨[]⟩ ∧
      ∃ tp0, TimeParts.ofTime gmtime ns = .ok tp0 ∧
        tp = { tp0 with holidayName := tp.holidayName } := by
  obtain ⟨tp, t1, t2, t3⟩ := execute_holiday cal gmtime quot hcal hg hq table ns h1 h2
  refine ⟨tp, t1, ?_, t3⟩
  have e : (ns.tdiv 1000000000).tdiv 86400 = ns / dayNs := by
    rcases h with h | ⟨k, rfl⟩
    · rw [Int.tdiv_eq_ediv_of_nonneg h, Int.tdiv_eq_ediv_of_nonneg (by omega)]
      unfold dayNs
      omega
    · rw [Int.mul_ediv_cancel_left _ (by decide)]
      rw [show dayNs * k = 1000000000 * (86400 * k) by unfold dayNs; omega,
        Int.mul_tdiv_cancel_left _ (by decide), Int.mul_tdiv_cancel_left _ (by decide)]
  rw [← e]; exact t2

/-- What happens to all other instants: the holiday of the following day is reported. -/
theorem C50_early_next_day (cal : Int → CDate) (gmtime : Int → Option Tm) (quot : Int → Rat)
    (hcal : IsCalendar cal) (hg : IsGmtime cal gmtime) (hq : IsDoubleQuotient quot)
    (table : List (Int × Str)) (ns : Int) (h1 : -(2 ^ 63) ≤ ns) (h2 : ns < 0)
    (h : ¬ dayNs ∣ ns) :
    ∃ tp, DateTimeTransformer.execute gmtime quot (holidayMap table) ns = .ok tp ∧
      tp.holidayName = (recordedHoliday table ((ns / dayNs + 1) * 86400)).getD ⟨[]⟩ := by
  obtain ⟨tp, t1, t2, -⟩ := execute_holiday cal gmtime quot hcal hg hq table ns h1 (by omega)
  refine ⟨tp, t1, ?_⟩
  have e : (ns.tdiv 1000000000).tdiv 86400 = ns / dayNs + 1 := by
    rw [tdiv_neg h2, Int.neg_tdiv, Int.tdiv_eq_ediv_of_nonneg (by omega)]
    unfold dayNs at h ⊢
    omega
  rw [← e]; exact t2

/-- The exact quotient meets the contract of the rounded one. -/
theorem exactQuotient : IsDoubleQuotient (fun s => (s : Rat) / 86400) where
  exact s _ _ h := by
    obtain ⟨k, rfl⟩ := h
    rw [Int.mul_ediv_cancel_left _ (by decide)]
    push_cast
    rw [mul_div_cancel_left₀ _ (by norm_num)]
  close s _ _ := by simp

/-- C50 fails at 1969-12-31T23:00:00Z: the holiday of 1970-01-01 is reported. -/
theorem C50_false : ¬ C50Claim := by
  intro h
  obtain ⟨tp, t1, t2⟩ := h DateH.fromDays gmtimeRef _ fromDays_isCalendar gmtimeRef_isGmtime
    exactQuotient [(0, ⟨[78, 89]⟩)] (-3600000000000) (by decide) (by decide)
  obtain ⟨tp', t1', t2'⟩ := C50_early_next_day DateH.fromDays gmtimeRef _ fromDays_isCalendar
    gmtimeRef_isGmtime exactQuotient [(0, ⟨[78, 89]⟩)] (-3600000000000) (by decide) (by decide)
    (by decide)
  rw [t1] at t1'
  have e : tp = tp' := by injection t1'
  subst e
  rw [t2] at t2'
  exact absurd t2' (by decide)

/-- A table with two names for 1970-01-02: the later one is reported at noon of that day. -/
example : recordedHoliday [(86400, ⟨[65]⟩), (0, ⟨[66]⟩), (86400, ⟨[67]⟩)]
    (129600000000000 / dayNs * 86400) = some ⟨[67]⟩ := by decide

/-! ### C59: country names -/

theorem doesCountryMatch_iff (country file : List UInt8) :
    doesCountryMatch country file = true ↔
      country = file ∨ country = removeExtension file ∨ country = toLower (removeExtension file) ∨
      country = (toLower (removeExtension file)).filter (fun c => ! isSpace c) := by
  unfold doesCountryMatch
  simp only
  split_ifs with h1 h2 h3 h4
  · simp [h1]
  · simp [h2]
  · simp [h3]
  · simp [h4]
  · simp only [false_iff, not_or]
    exact ⟨fun h => h1 h.symm, fun h => h2 h.symm, fun h => h3 h.symm, fun h => h4 h.symm⟩

/-- The stem of a file name: what precedes the last dot. -/
theorem removeExtension_spec (stem ext : List UInt8) (h : (46 : UInt8) ∉ ext) :
    removeExtension (stem ++ 46 :: ext) = stem := by
  unfold removeExtension
  rw [if_pos (by simp)]
  have : (stem ++ 46 :: ext).reverse = ext.reverse ++ (46 :: stem.reverse) := by simp
  rw [this, List.dropWhile_append_of_pos]
  · simp
  · intro a ha
    have : a ∈ ext := List.mem_reverse.1 ha
    have : a ≠ 46 := fun e => h (e ▸ this)
    simpa using this

theorem removeExtension_noDot (name : List UInt8) (h : (46 : UInt8) ∉ name) :
    removeExtension name = name := by
  unfold removeExtension
  rw [if_neg h]

/-- C59: constructing the transformer with a country name succeeds exactly when the estimator accepts
it, that is when the name is empty (transformer only) or one of the data files answers to it; the
table is then that of the first such file. -/
theorem C59_country (data : HolidayData) (country : List UInt8) (hne : country ≠ []) :
    (isValidCountry data.files country = true ↔
      ∃ file ∈ data.files, country = file ∨ country = removeExtension file ∨
        country = toLower (removeExtension file) ∨
        country = (toLower (removeExtension file)).filter (fun c => ! isSpace c)) ∧
    (isValidCountry data.files country = true →
      ∃ pre file post, data.files = pre ++ file :: post ∧
        doesCountryMatch country file = true ∧
        (∀ f ∈ pre, doesCountryMatch country f = false) ∧
        DateTimeTransformer.make data country = .ok (country, holidayMap (data.table file)) ∧
        DateTimeEstimator.make data (some country) = .ok (some country)) ∧
    (isValidCountry data.files country = false →
      DateTimeTransformer.make data country = .error .invalidArgument ∧
      DateTimeEstimator.make data (some country) = .error .invalidArgument) := by
  refine ⟨?_, ?_, ?_⟩
  · unfold isValidCountry enumCountries
    rw [List.find?_isSome]
    constructor
    · rintro ⟨f, hf, hm⟩
      exact ⟨f, hf, (doesCountryMatch_iff _ _).1 hm⟩
    · rintro ⟨f, hf, hm⟩
      exact ⟨f, hf, (doesCountryMatch_iff _ _).2 hm⟩
  · intro h
    have h' := h
    unfold isValidCountry enumCountries at h
    obtain ⟨file, hf⟩ := Option.isSome_iff_exists.1 h
    have hf' := hf
    rw [List.find?_eq_some_iff_append] at hf
    obtain ⟨hm, pre, post, hl, hpre⟩ := hf
    refine ⟨pre, file, post, hl, hm, ?_, ?_, ?_⟩
    · intro f hfm
      simpa using hpre f hfm
    · unfold DateTimeTransformer.make enumCountries
      rw [if_neg hne, hf']
    · unfold DateTimeEstimator.make
      simp only [h', if_true]
  · intro h
    constructor
    · unfold DateTimeTransformer.make
      rw [if_neg hne]
      unfold isValidCountry at h
      have : enumCountries data.files (doesCountryMatch country) = none := by simpa using h
      rw [this]
    · unfold DateTimeEstimator.make
      simp [h]

/-- C59: every country that is reported as supported is accepted, and the report is sorted and has
one entry per data file. -/
theorem C59_supported (data : HolidayData) :
    (∀ c ∈ getSupportedCountries data.files, isValidCountry data.files c = true) ∧
    (getSupportedCountries data.files).Pairwise (fun a b => Str.mk a ≤ Str.mk b) ∧
    (getSupportedCountries data.files).Perm (data.files.map removeExtension) := by
  have hp : (getSupportedCountries data.files).Perm (data.files.map removeExtension) :=
    List.perm_insertionSort _ _
  refine ⟨?_, ?_, hp⟩
  · intro c hc
    have := hp.mem_iff.1 hc
    obtain ⟨f, hf, rfl⟩ := List.mem_map.1 this
    unfold isValidCountry enumCountries
    rw [List.find?_isSome]
    exact ⟨f, hf, (doesCountryMatch_iff _ _).2 (Or.inr (Or.inl rfl))⟩
  · have t : Std.Total (fun a b : List UInt8 => strLe a b = true) :=
      ⟨fun a b => by
        unfold strLe
        rcases le_total (Str.mk a) (Str.mk b) with h | h
        · left; simpa using h
        · right; simpa using h⟩
    have tr : IsTrans (List UInt8) (fun a b : List UInt8 => strLe a b = true) :=
      ⟨fun a b c h1 h2 => by
        unfold strLe at *
        simp only [decide_eq_true_eq] at *
        exact le_trans h1 h2⟩
    have := List.pairwise_insertionSort (fun a b : List UInt8 => strLe a b = true)
      (data.files.map removeExtension)
    exact this.imp (fun h => by unfold strLe at h; simpa using h)

/-- The estimator accepts an empty country name only if some file has an empty stem; the transformer
always does, and reports no holidays. -/
theorem C59_empty (data : HolidayData) :
    DateTimeTransformer.make data [] = .ok ([], UMap.empty) ∧
    DateTimeEstimator.createTransformer data none = .ok ([], UMap.empty) := ⟨rfl, rfl⟩

/-- "A b.json" answers to "A b", "a b" and "ab" but not to "AB". -/
example :
    let files : List (List UInt8) := [[67], [65, 32, 98, 46, 106]]
    isValidCountry files [65, 32, 98] = true ∧ isValidCountry files [97, 32, 98] = true ∧
    isValidCountry files [97, 98] = true ∧ isValidCountry files [65, 66] = false ∧
    getSupportedCountries files = [[65, 32, 98], [67]] := by decide

end Feat
