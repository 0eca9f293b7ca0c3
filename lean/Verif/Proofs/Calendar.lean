import Verif.Model.DateTime
import Mathlib.Tactic.SplitIfs

/-!
# `date.h` computes the calendar

`DateH.fromDays` is the proleptic Gregorian calendar, `DateH.toDays` its inverse, and there is only
one calendar.
-/

namespace Feat

theorem yearOfCentury (c r w : Int) (hc : 0 ≤ c ∧ c ≤ 3) (h : 0 ≤ r) (h2 : r < 36524)
    (hw : (r - (24 * c + r) / 1460) / 365 = w) :
    0 ≤ w ∧ w ≤ 99 ∧ 365 * w + w / 4 ≤ r ∧ (r < 365 * (w + 1) + (w + 1) / 4 ∨ w = 99) := by
  have h0 : 0 ≤ w := by omega
  have h99 : w ≤ 99 := by omega
  obtain ⟨q, hq⟩ : ∃ q, (24 * c + r) / 1460 = q := ⟨_, rfl⟩
  obtain ⟨a, ha⟩ : ∃ a, w / 4 = a := ⟨_, rfl⟩
  obtain ⟨b, hb⟩ : ∃ b, w % 4 = b := ⟨_, rfl⟩
  have hwab : w = 4 * a + b := by omega
  have hbr : b = 0 ∨ b = 1 ∨ b = 2 ∨ b = 3 := by omega
  rw [hq] at hw
  have q1 : 1460 * q ≤ 24 * c + r := by omega
  have q2 : 24 * c + r < 1460 * q + 1460 := by omega
  have w1 : 365 * w ≤ r - q := by omega
  have w2 : r - q < 365 * w + 365 := by omega
  clear hq hw
  have hqa : q ≤ 25 := by omega
  have e1 : a ≤ q := by
    rcases hbr with rfl | rfl | rfl | rfl <;> omega
  have e2 : q ≤ a + 1 := by
    rcases hbr with rfl | rfl | rfl | rfl <;> omega
  have e3 : q = a ∨ q = a + 1 := by omega
  refine ⟨h0, h99, ?_, ?_⟩
  · rw [ha]; omega
  · rcases e3 with rfl | rfl <;> rcases hbr with rfl | rfl | rfl | rfl <;> omega

/-- Days before March 1 of the year `y` (counted from 0000-03-01). -/
def marchBase (y : Int) : Int := 365 * y + y / 4 - y / 100 + y / 400

theorem marchBase_mono {a b : Int} (h : a ≤ b) : marchBase a ≤ marchBase b := by
  unfold marchBase
  have : a / 4 ≤ b / 4 := by omega
  have : a / 400 ≤ b / 400 := by omega
  have : b / 100 ≤ a / 100 + (b - a) := by omega
  omega

/-- The year of the era and the day of the year that `from_days` computes. -/
theorem yoe_spec (doe yoe : Int) (h0 : 0 ≤ doe) (h1 : doe ≤ 146096)
    (hy : (doe - doe / 1460 + doe / 36524 - doe / 146096) / 365 = yoe) :
    0 ≤ yoe ∧ yoe ≤ 399 ∧ marchBase yoe ≤ doe ∧ doe < marchBase (yoe + 1) := by
  by_cases hl : doe = 146096
  · subst hl
    have : yoe = 399 := by omega
    subst this
    decide
  · have h3 : doe / 146096 = 0 := by omega
    rw [h3] at hy
    obtain ⟨c, hc⟩ : ∃ c, doe / 36524 = c := ⟨_, rfl⟩
    obtain ⟨r, hr⟩ : ∃ r, doe % 36524 = r := ⟨_, rfl⟩
    have hd : doe = 36524 * c + r := by omega
    have hc3 : 0 ≤ c ∧ c ≤ 3 := by omega
    have hr2 : 0 ≤ r ∧ r < 36524 := by omega
    have hq : doe / 1460 = 25 * c + (24 * c + r) / 1460 := by omega
    obtain ⟨w, hw⟩ : ∃ w, (r - (24 * c + r) / 1460) / 365 = w := ⟨_, rfl⟩
    have key := yearOfCentury c r w hc3 hr2.1 hr2.2 hw
    have hyw : yoe = 100 * c + w := by
      rw [hc, hq, hd] at hy
      generalize (24 * c + r) / 1460 = q at *
      omega
    subst hyw
    obtain ⟨k0, k1, k2, k3⟩ := key
    unfold marchBase
    refine ⟨by omega, by omega, ?_, ?_⟩
    · have : (100 * c + w) / 100 = c := by omega
      have : (100 * c + w) / 4 = 25 * c + w / 4 := by omega
      have : (100 * c + w) / 400 = 0 := by omega
      omega
    · rcases k3 with k3 | rfl
      · by_cases h99 : w = 99
        · subst h99
          have : (100 * c + 99 + 1) / 100 = c + 1 := by omega
          have : (100 * c + 99 + 1) / 4 = 25 * c + 25 := by omega
          have : 0 ≤ (100 * c + 99 + 1) / 400 := by omega
          omega
        · have : (100 * c + w + 1) / 100 = c := by omega
          have : (100 * c + w + 1) / 4 = 25 * c + (w + 1) / 4 := by omega
          have : 0 ≤ (100 * c + w + 1) / 400 := by omega
          omega
      · have : (100 * c + 99 + 1) / 100 = c + 1 := by omega
        have : (100 * c + 99 + 1) / 4 = 25 * c + 25 := by omega
        have : 0 ≤ (100 * c + 99 + 1) / 400 := by omega
        omega

/-- `to_days` without eras. -/
theorem toDays_flat (x : CDate) :
    DateH.toDays x = marchBase (x.y - (if x.m ≤ 2 then 1 else 0))
      + ((153 * (if x.m > 2 then x.m - 3 else x.m + 9) + 2) / 5 + x.d - 1) - 719468 := by
  unfold DateH.toDays marchBase
  generalize x.y - (if x.m ≤ 2 then 1 else 0) = y
  generalize (153 * (if x.m > 2 then x.m - 3 else x.m + 9) + 2) / 5 + x.d - 1 = doy
  have he : (if 0 ≤ y then y else y - 399).tdiv 400 = y / 400 := by
    split_ifs with h
    · rw [Int.tdiv_eq_ediv_of_nonneg h]
    · have h1 : 0 ≤ -(y - 399) := by omega
      have h2 := Int.neg_tdiv (a := -(y - 399)) (b := 400)
      rw [Int.neg_neg, Int.tdiv_eq_ediv_of_nonneg h1] at h2
      rw [h2]
      omega
  simp only [he]
  generalize hq : y / 400 = e
  have : (y - e * 400) / 4 = y / 4 - 100 * e := by omega
  have : (y - e * 400) / 100 = y / 100 - 4 * e := by omega
  omega

theorem leapYear_iff (y : Int) : leapYear y ↔ (y % 4 = 0 ∧ (y % 100 ≠ 0 ∨ y % 400 = 0)) := by
  unfold leapYear
  omega

/-- The length of the March-based year that ends in the February of year `y`. -/
theorem marchBase_step (y : Int) :
    marchBase y = marchBase (y - 1) + (if leapYear y then 366 else 365) := by
  unfold marchBase
  have h4 : y / 4 = (y - 1) / 4 + (if y % 4 = 0 then 1 else 0) := by split_ifs <;> omega
  have h100 : y / 100 = (y - 1) / 100 + (if y % 100 = 0 then 1 else 0) := by split_ifs <;> omega
  have h400 : y / 400 = (y - 1) / 400 + (if y % 400 = 0 then 1 else 0) := by split_ifs <;> omega
  have hl := leapYear_iff y
  by_cases h : leapYear y
  · rw [if_pos h]
    have h' := hl.1 h
    rw [if_pos h'.1] at h4
    by_cases c : y % 400 = 0
    · rw [if_pos c] at h400
      rw [if_pos (by omega)] at h100
      omega
    · rw [if_neg c] at h400
      rw [if_neg (by omega)] at h100
      omega
  · rw [if_neg h]
    have h' : ¬ (y % 4 = 0 ∧ (y % 100 ≠ 0 ∨ y % 400 = 0)) := fun k => h (hl.2 k)
    by_cases c : y % 4 = 0
    · rw [if_pos c] at h4
      rw [if_pos (by omega)] at h100
      rw [if_neg (by omega)] at h400
      omega
    · rw [if_neg c] at h4
      rw [if_neg (by omega)] at h100
      rw [if_neg (by omega)] at h400
      omega

/-- Eras of 400 years repeat. -/
theorem marchBase_era (y e : Int) : marchBase (y + e * 400) = marchBase y + 146097 * e := by
  unfold marchBase
  have : (y + e * 400) / 4 = y / 4 + 100 * e := by omega
  have : (y + e * 400) / 100 = y / 100 + 4 * e := by omega
  have : (y + e * 400) / 400 = y / 400 + e := by omega
  omega

/-- The March-based year that a date belongs to, and the bounds of its day number. -/
theorem toDays_bounds (x : CDate) (h : x.Valid) :
    marchBase (x.y - (if x.m ≤ 2 then 1 else 0)) ≤ DateH.toDays x + 719468 ∧
    DateH.toDays x + 719468 < marchBase (x.y - (if x.m ≤ 2 then 1 else 0) + 1) := by
  rw [toDays_flat]
  obtain ⟨y, m, d⟩ := x
  obtain ⟨h1, h2, h3, h4⟩ := h
  simp only at h1 h2 h3 h4 ⊢
  unfold monthLen at h4
  simp only [leapYear_iff] at h4
  have hm : m = 1 ∨ m = 2 ∨ m = 3 ∨ m = 4 ∨ m = 5 ∨ m = 6 ∨ m = 7 ∨ m = 8 ∨ m = 9 ∨ m = 10 ∨
    m = 11 ∨ m = 12 := by omega
  unfold marchBase
  rcases hm with rfl | rfl | rfl | rfl | rfl | rfl | rfl | rfl | rfl | rfl | rfl | rfl <;>
    simp at h4 ⊢ <;> (try split_ifs at h4) <;> constructor <;> omega

/-- The month and the day of the month come back from the day of the March-based year. -/
theorem doy_inverse (m d y : Int) (h : CDate.Valid ⟨y, m, d⟩) :
    (5 * ((153 * (if m > 2 then m - 3 else m + 9) + 2) / 5 + d - 1) + 2) / 153
      = (if m > 2 then m - 3 else m + 9) := by
  obtain ⟨h1, h2, h3, h4⟩ := h
  simp only at h1 h2 h3 h4 ⊢
  unfold monthLen at h4
  have hm : m = 1 ∨ m = 2 ∨ m = 3 ∨ m = 4 ∨ m = 5 ∨ m = 6 ∨ m = 7 ∨ m = 8 ∨ m = 9 ∨ m = 10 ∨
    m = 11 ∨ m = 12 := by omega
  rcases hm with rfl | rfl | rfl | rfl | rfl | rfl | rfl | rfl | rfl | rfl | rfl | rfl <;>
    simp at h4 ⊢ <;> (try split_ifs at h4) <;> omega

/-- Different dates have different day numbers. -/
theorem toDays_inj (x x' : CDate) (h : x.Valid) (h' : x'.Valid)
    (e : DateH.toDays x = DateH.toDays x') : x = x' := by
  have b := toDays_bounds x h
  have b' := toDays_bounds x' h'
  rw [e] at b
  have hY : x.y - (if x.m ≤ 2 then 1 else 0) = x'.y - (if x'.m ≤ 2 then 1 else 0) := by
    rcases Int.lt_trichotomy (x.y - (if x.m ≤ 2 then 1 else 0))
      (x'.y - (if x'.m ≤ 2 then 1 else 0)) with hl | hl | hl
    · have := marchBase_mono (show x.y - (if x.m ≤ 2 then 1 else 0) + 1 ≤
        x'.y - (if x'.m ≤ 2 then 1 else 0) by omega)
      omega
    · exact hl
    · have := marchBase_mono (show x'.y - (if x'.m ≤ 2 then 1 else 0) + 1 ≤
        x.y - (if x.m ≤ 2 then 1 else 0) by omega)
      omega
  rw [toDays_flat, toDays_flat, hY] at e
  have hdoy : (153 * (if x.m > 2 then x.m - 3 else x.m + 9) + 2) / 5 + x.d - 1
      = (153 * (if x'.m > 2 then x'.m - 3 else x'.m + 9) + 2) / 5 + x'.d - 1 := by omega
  have i := doy_inverse x.m x.d x.y h
  have i' := doy_inverse x'.m x'.d x'.y h'
  rw [hdoy, i'] at i
  obtain ⟨y, m, d⟩ := x
  obtain ⟨y', m', d'⟩ := x'
  simp only at hY hdoy i
  have hm : m = m' := by
    have := h.m1; have := h.m12; have := h'.m1; have := h'.m12
    simp only at *
    split_ifs at i <;> omega
  subst hm
  have hy : y = y' := by omega
  have hd : d = d' := by omega
  rw [hy, hd]

/-- The day after has the next day number. -/
theorem toDays_next (x : CDate) (h : x.Valid) : DateH.toDays x.next = DateH.toDays x + 1 := by
  rw [toDays_flat, toDays_flat]
  obtain ⟨y, m, d⟩ := x
  obtain ⟨h1, h2, h3, h4⟩ := h
  simp only at h1 h2 h3 h4
  unfold CDate.next
  simp only
  by_cases hlt : d < monthLen y m
  · rw [if_pos hlt]
    simp only
    omega
  · rw [if_neg hlt]
    have hd : d = monthLen y m := by omega
    subst hd
    clear hlt h4 h3
    have hm : m = 1 ∨ m = 2 ∨ m = 3 ∨ m = 4 ∨ m = 5 ∨ m = 6 ∨ m = 7 ∨ m = 8 ∨ m = 9 ∨ m = 10 ∨
      m = 11 ∨ m = 12 := by omega
    have hl := marchBase_step y
    rcases hm with rfl | rfl | rfl | rfl | rfl | rfl | rfl | rfl | rfl | rfl | rfl | rfl <;>
      simp [monthLen] <;> (try omega)
    split_ifs with hleap
    · rw [if_pos hleap] at hl; omega
    · rw [if_neg hleap] at hl; omega

/-- The date `from_days` computes is a date and has the day number it was computed from. -/
theorem fromDays_spec (n : Int) :
    (DateH.fromDays n).Valid ∧ DateH.toDays (DateH.fromDays n) = n := by
  unfold DateH.fromDays
  have he : (if 0 ≤ n + 719468 then n + 719468 else n + 719468 - 146096).tdiv 146097
      = (n + 719468) / 146097 := by
    split_ifs with h
    · rw [Int.tdiv_eq_ediv_of_nonneg h]
    · have h1 : 0 ≤ -(n + 719468 - 146096) := by omega
      have h2 := Int.neg_tdiv (a := -(n + 719468 - 146096)) (b := 146097)
      rw [Int.neg_neg, Int.tdiv_eq_ediv_of_nonneg h1] at h2
      rw [h2]
      omega
  simp only [he]
  obtain ⟨era, hera⟩ : ∃ era, (n + 719468) / 146097 = era := ⟨_, rfl⟩
  obtain ⟨doe, hdoe⟩ : ∃ doe, n + 719468 - era * 146097 = doe := ⟨_, rfl⟩
  obtain ⟨yoe, hyoe⟩ :
      ∃ yoe, (doe - doe / 1460 + doe / 36524 - doe / 146096) / 365 = yoe := ⟨_, rfl⟩
  rw [hera, hdoe, hyoe]
  obtain ⟨b0, b1, b2, b3⟩ := yoe_spec doe yoe (by omega) (by omega) hyoe
  obtain ⟨doy, hdoy⟩ : ∃ doy, doe - (365 * yoe + yoe / 4 - yoe / 100) = doy := ⟨_, rfl⟩
  rw [hdoy]
  have hb : marchBase yoe = 365 * yoe + yoe / 4 - yoe / 100 := by
    unfold marchBase; omega
  have hdoy0 : 0 ≤ doy := by omega
  have hleap : doy ≤ 364 ∨ (doy = 365 ∧ leapYear (yoe + 1 + era * 400)) := by
    have hs := marchBase_step (yoe + 1)
    have hs' : marchBase (yoe + 1 - 1) = marchBase yoe := by rw [show yoe + 1 - 1 = yoe by omega]
    by_cases hl : leapYear (yoe + 1)
    · rw [if_pos hl] at hs
      have : leapYear (yoe + 1 + era * 400) := by
        rw [leapYear_iff] at hl ⊢
        omega
      by_cases c : doy ≤ 364
      · exact Or.inl c
      · exact Or.inr ⟨by omega, this⟩
    · rw [if_neg hl] at hs
      left
      omega
  clear hera
  obtain ⟨mp, hmp⟩ : ∃ mp, (5 * doy + 2) / 153 = mp := ⟨_, rfl⟩
  rw [hmp]
  have hmpr : mp = 0 ∨ mp = 1 ∨ mp = 2 ∨ mp = 3 ∨ mp = 4 ∨ mp = 5 ∨ mp = 6 ∨ mp = 7 ∨ mp = 8 ∨
    mp = 9 ∨ mp = 10 ∨ mp = 11 := by omega
  constructor
  · rcases hmpr with rfl | rfl | rfl | rfl | rfl | rfl | rfl | rfl | rfl | rfl | rfl | rfl <;>
      refine ⟨by simp, by simp, by simp; omega, ?_⟩ <;>
      simp [monthLen] <;> (try omega)
    split_ifs with hl
    · omega
    · rcases hleap with h | h
      · omega
      · exfalso
        apply hl
        have := h.2
        rwa [show yoe + era * 400 + 1 = yoe + 1 + era * 400 by omega]
  · rw [toDays_flat]
    have hmb := marchBase_era yoe era
    rcases hmpr with rfl | rfl | rfl | rfl | rfl | rfl | rfl | rfl | rfl | rfl | rfl | rfl <;>
      simp <;> omega

/-- `from_days` undoes `to_days`. -/
theorem fromDays_toDays (x : CDate) (h : x.Valid) : DateH.fromDays (DateH.toDays x) = x :=
  toDays_inj _ _ (fromDays_spec _).1 h (fromDays_spec _).2

/-- `DateH.fromDays` is the proleptic Gregorian calendar. -/
theorem fromDays_isCalendar : IsCalendar DateH.fromDays where
  epoch := by decide
  valid n := (fromDays_spec n).1
  succ n := by
    have hv : (DateH.fromDays n).next.Valid := by
      have h := (fromDays_spec n).1
      generalize DateH.fromDays n = x at h
      obtain ⟨y, m, d⟩ := x
      obtain ⟨h1, h2, h3, h4⟩ := h
      simp only at h1 h2 h3 h4
      unfold CDate.next
      simp only
      have pos : ∀ y m, 1 ≤ monthLen y m := by
        intro y m
        unfold monthLen
        split_ifs <;> omega
      split_ifs with c1 c2
      · exact ⟨h1, h2, by simp only; omega, by simp only; omega⟩
      · exact ⟨by simp only; omega, by simp only; omega, by simp, pos _ _⟩
      · exact ⟨by simp, by simp, by simp, pos _ _⟩
    apply toDays_inj _ _ (fromDays_spec _).1 hv
    rw [toDays_next _ (fromDays_spec n).1, (fromDays_spec _).2, (fromDays_spec _).2]

/-- There is only one calendar. -/
theorem IsCalendar.unique {f g : Int → CDate} (hf : IsCalendar f) (hg : IsCalendar g) : f = g := by
  have up : ∀ k : Nat, f k = g k := by
    intro k
    induction k with
    | zero => exact hf.epoch.trans hg.epoch.symm
    | succ k ih =>
      rw [Int.natCast_succ, hf.succ, hg.succ, ih]
  have down : ∀ k : Nat, f (-k) = g (-k) := by
    intro k
    induction k with
    | zero => exact hf.epoch.trans hg.epoch.symm
    | succ k ih =>
      have e : (-((k + 1 : Nat) : Int)) + 1 = -(k : Int) := by omega
      have h1 := hf.succ (-((k + 1 : Nat) : Int))
      have h2 := hg.succ (-((k + 1 : Nat) : Int))
      rw [e] at h1 h2
      have h3 : (f (-((k + 1 : Nat) : Int))).next = (g (-((k + 1 : Nat) : Int))).next := by
        rw [← h1, ← h2, ih]
      have t1 := toDays_next _ (hf.valid (-((k + 1 : Nat) : Int)))
      have t2 := toDays_next _ (hg.valid (-((k + 1 : Nat) : Int)))
      rw [h3] at t1
      exact toDays_inj _ _ (hf.valid _) (hg.valid _) (by omega)
  funext n
  rcases Int.le_total 0 n with h | h
  · have := up n.toNat
    rwa [Int.toNat_of_nonneg h] at this
  · have := down (-n).toNat
    rw [Int.toNat_of_nonneg (by omega), Int.neg_neg] at this
    exact this

theorem IsCalendar.eq {f : Int → CDate} (hf : IsCalendar f) : f = DateH.fromDays :=
  hf.unique fromDays_isCalendar

end Feat
