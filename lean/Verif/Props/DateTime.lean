import Verif.Spec.DateTime
import Verif.Proofs.Calendar
import Mathlib.Tactic.Linarith
import Mathlib.Tactic.NormNum
import Mathlib.Tactic.FieldSimp
import Mathlib.Algebra.Order.Floor.Ring
import Mathlib.Data.Rat.Floor

/-!
# C49, C50, C57, C58, C59: decomposing instants

C49 and C50 are false for instants before 1970 that are not on a whole second (C49) or not at
midnight (C50): both conversions truncate toward zero, that is into the future.
-/

namespace Feat

/-! ### Years -/

/-- The day number of January 1. -/
def jan1 (y : Int) : Int := DateH.toDays ⟨y, 1, 1⟩

theorem jan1_flat (y : Int) : jan1 y = marchBase (y - 1) + 306 - 719468 := by
  unfold jan1
  rw [toDays_flat]
  simp

theorem jan1_mono {a b : Int} (h : a ≤ b) : jan1 a ≤ jan1 b := by
  rw [jan1_flat, jan1_flat]
  have := marchBase_mono (show a - 1 ≤ b - 1 by omega)
  omega

theorem jan1_step (y : Int) : jan1 (y + 1) = jan1 y + (if leapYear y then 366 else 365) := by
  rw [jan1_flat, jan1_flat]
  have := marchBase_step y
  rw [show y + 1 - 1 = y by omega]
  omega

theorem year_bounds (x : CDate) (h : x.Valid) :
    jan1 x.y ≤ DateH.toDays x ∧ DateH.toDays x < jan1 (x.y + 1) := by
  rw [toDays_flat, jan1_flat, jan1_flat]
  rw [show x.y + 1 - 1 = x.y by omega]
  have hs := marchBase_step x.y
  obtain ⟨y, m, d⟩ := x
  obtain ⟨h1, h2, h3, h4⟩ := h
  simp only at h1 h2 h3 h4 hs ⊢
  unfold monthLen at h4
  have hm : m = 1 ∨ m = 2 ∨ m = 3 ∨ m = 4 ∨ m = 5 ∨ m = 6 ∨ m = 7 ∨ m = 8 ∨ m = 9 ∨ m = 10 ∨
    m = 11 ∨ m = 12 := by omega
  by_cases hl : leapYear y
  · rw [if_pos hl] at h4 hs
    rcases hm with rfl | rfl | rfl | rfl | rfl | rfl | rfl | rfl | rfl | rfl | rfl | rfl <;>
      simp at h4 ⊢ <;> constructor <;> omega
  · rw [if_neg hl] at h4 hs
    rcases hm with rfl | rfl | rfl | rfl | rfl | rfl | rfl | rfl | rfl | rfl | rfl | rfl <;>
      simp at h4 ⊢ <;> constructor <;> omega

/-- The year of a day. -/
theorem year_iff (n y : Int) : (DateH.fromDays n).y = y ↔ jan1 y ≤ n ∧ n < jan1 (y + 1) := by
  have b := year_bounds _ (fromDays_spec n).1
  rw [(fromDays_spec n).2] at b
  constructor
  · rintro rfl
    exact b
  · intro h
    rcases Int.lt_trichotomy (DateH.fromDays n).y y with hl | hl | hl
    · have := jan1_mono (show (DateH.fromDays n).y + 1 ≤ y by omega)
      omega
    · exact hl
    · have := jan1_mono (show y + 1 ≤ (DateH.fromDays n).y by omega)
      omega

theorem weekdayFromDays_eq (n : Int) : DateH.weekdayFromDays n = weekdayOf n := by
  unfold DateH.weekdayFromDays weekdayOf
  split_ifs with h
  · rw [Int.tmod_eq_emod_of_nonneg (by omega)]
  · have h2 := Int.neg_tmod (a := -(n + 5)) (b := 7)
    rw [Int.neg_neg] at h2
    rw [h2, Int.tmod_eq_emod_of_nonneg (by omega)]
    omega

/-- The last Thursday of December is the one before the first Thursday of the next year. -/
theorem lastThursday_spec (y : Int) :
    weekdayOf (DateH.lastThursdayOfDecember y) = 4 ∧
    jan1 (y + 1) - 7 ≤ DateH.lastThursdayOfDecember y ∧
    DateH.lastThursdayOfDecember y < jan1 (y + 1) := by
  have hd : DateH.toDays ⟨y, 12, DateH.lastDay y 12⟩ = jan1 (y + 1) - 1 := by
    have : DateH.lastDay y 12 = 31 := by
      unfold DateH.lastDay
      simp
    rw [this, jan1_flat, toDays_flat, show y + 1 - 1 = y by omega]
    simp
    omega
  unfold DateH.lastThursdayOfDecember
  simp only [hd, weekdayFromDays_eq]
  unfold DateH.weekdayDiff weekdayOf
  simp only
  split_ifs <;> omega

/-! ### C58: ISO weeks -/

theorem isoWeek_spec (n : Int) :
    IsIsoWeek DateH.fromDays n (IsoWeek.fromDays n).1 (IsoWeek.fromDays n).2 ∧
    (IsoWeek.fromDays n).2 ≤ 53 := by
  have hw : DateH.weekdayDiff 1 4 = 4 := by decide
  unfold IsoWeek.fromDays
  simp only [hw]
  obtain ⟨y, hy⟩ : ∃ y, (DateH.fromDays (n + 3)).y = y := ⟨_, rfl⟩
  rw [hy]
  have hb := (year_iff _ _).1 hy
  have t1 := lastThursday_spec (y - 1)
  have t2 := lastThursday_spec (y - 1 - 1)
  rw [show y - 1 + 1 = y by omega] at t1
  rw [show y - 1 - 1 + 1 = y - 1 by omega] at t2
  have s1 := jan1_step (y - 1)
  rw [show y - 1 + 1 = y by omega] at s1
  have s2 := jan1_step y
  have s0 := jan1_step (y - 2)
  rw [show y - 2 + 1 = y - 1 by omega] at s0
  have s1' : jan1 (y - 1) + 365 ≤ jan1 y ∧ jan1 y ≤ jan1 (y - 1) + 366 := by
    split_ifs at s1 <;> omega
  have s2' : jan1 y + 365 ≤ jan1 (y + 1) ∧ jan1 (y + 1) ≤ jan1 y + 366 := by
    split_ifs at s2 <;> omega
  have s0' : jan1 (y - 2) + 365 ≤ jan1 (y - 1) := by
    split_ifs at s0 <;> omega
  clear s1 s2 s0
  -- the Monday of the week
  obtain ⟨mon, hmon⟩ : ∃ mon, n - (n + 3) % 7 = mon := ⟨_, rfl⟩
  have hm1 : weekdayOf mon = 1 := by unfold weekdayOf; omega
  have hm2 : mon ≤ n := by omega
  have hm3 : n ≤ mon + 6 := by omega
  generalize hL1 : DateH.lastThursdayOfDecember (y - 1) = L1 at *
  generalize hL2 : DateH.lastThursdayOfDecember (y - 1 - 1) = L2 at *
  obtain ⟨u1, u2, u3⟩ := t1
  obtain ⟨v1, v2, v3⟩ := t2
  have ylt : ∀ k, (DateH.fromDays (k - 7)).y < (DateH.fromDays k).y ∨
      (DateH.fromDays (k - 7)).y = (DateH.fromDays k).y := by
    intro k
    have a := (year_iff _ _).1 (rfl : (DateH.fromDays (k - 7)).y = _)
    have b := (year_iff _ _).1 (rfl : (DateH.fromDays k).y = _)
    rcases Int.lt_trichotomy (DateH.fromDays (k - 7)).y (DateH.fromDays k).y with h | h | h
    · exact Or.inl h
    · exact Or.inr h
    · have := jan1_mono (show (DateH.fromDays k).y + 1 ≤ (DateH.fromDays (k - 7)).y by omega)
      omega
  by_cases hlt : n < L1 + 4
  · rw [if_pos hlt]
    simp only
    have hge : 0 ≤ n - (L2 + 4) := by unfold weekdayOf at *; omega
    rw [Int.tdiv_eq_ediv_of_nonneg hge]
    have hthu : (DateH.fromDays (mon + 3)).y = y - 1 := by
      rw [year_iff, show y - 1 + 1 = y by omega]
      unfold weekdayOf at *
      constructor <;> omega
    have hft : (DateH.fromDays (L2 + 7)).y = y - 1 := by
      rw [year_iff, show y - 1 + 1 = y by omega]
      constructor <;> omega
    refine ⟨⟨mon, L2 + 7, hm1, hm2, hm3, hthu, ?_, hft, ?_, ?_, ?_⟩, ?_⟩
    · unfold weekdayOf at *; omega
    · have := (year_iff (L2 + 7 - 7) (y - 2)).2 (by
        rw [show y - 2 + 1 = y - 1 by omega]
        constructor <;> omega)
      rw [this]; omega
    · unfold weekdayOf at *; omega
    · omega
    · unfold weekdayOf at *; omega
  · rw [if_neg hlt]
    simp only
    have hge : 0 ≤ n - (L1 + 4) := by omega
    rw [Int.tdiv_eq_ediv_of_nonneg hge]
    have hthu : (DateH.fromDays (mon + 3)).y = y := by
      rw [year_iff]
      unfold weekdayOf at *
      constructor <;> omega
    have hft : (DateH.fromDays (L1 + 7)).y = y := by
      rw [year_iff]
      constructor <;> omega
    refine ⟨⟨mon, L1 + 7, hm1, hm2, hm3, hthu, ?_, hft, ?_, ?_, ?_⟩, ?_⟩
    · unfold weekdayOf at *; omega
    · have := (year_iff (L1 + 7 - 7) (y - 1)).2 (by
        rw [show y - 1 + 1 = y by omega]
        constructor <;> omega)
      rw [this]; omega
    · unfold weekdayOf at *; omega
    · omega
    · unfold weekdayOf at *; omega

/-! ### C49 -/

theorem tdiv_neg {a : Int} (h : a < 0) : a.tdiv 1000000000 = -(-a / 1000000000) := by
  have h2 := Int.neg_tdiv (a := -a) (b := 1000000000)
  rw [Int.neg_neg, Int.tdiv_eq_ediv_of_nonneg (a := -a) (by omega)] at h2
  exact h2

theorem tdiv_range {ns : Int} (h1 : -(2 ^ 63) ≤ ns) (h2 : ns < 2 ^ 63) :
    -(2 ^ 34) ≤ ns.tdiv 1000000000 ∧ ns.tdiv 1000000000 ≤ 2 ^ 34 := by
  rcases Int.lt_or_le ns 0 with h | h
  · rw [tdiv_neg h]; omega
  · rw [Int.tdiv_eq_ediv_of_nonneg h]; omega

/-- Whole seconds below 2^34 in size: what the code does for the second it truncated to. -/
theorem ofTime_spec (cal : Int → CDate) (gmtime : Int → Option Tm) (hcal : IsCalendar cal)
    (hg : IsGmtime cal gmtime) (ns : Int) (h1 : -(2 ^ 63) ≤ ns) (h2 : ns < 2 ^ 63) :
    ∃ tp, TimeParts.ofTime gmtime ns = .ok tp ∧
      tp.Describes cal (ns.tdiv 1000000000 * 1000000000) ∧
      IsIsoWeek cal (ns.tdiv 1000000000 / 86400) tp.yearIso tp.weekIso ∧
      tp.holidayName = ⟨[]⟩ := by
  have hc := hcal.eq
  subst hc
  have htt : -(2 ^ 34) ≤ ns.tdiv 1000000000 ∧ ns.tdiv 1000000000 ≤ 2 ^ 34 := tdiv_range h1 h2
  unfold TimeParts.ofTime toTimeT
  generalize ns.tdiv 1000000000 = t at *
  obtain ⟨tm, hg1, hg2⟩ := hg t htt.1 htt.2
  simp only [hg1]
  obtain ⟨year, mon, mday, hour, min, sec, wday, yday⟩ := tm
  obtain ⟨g1, g2, g3, g4, g5, g6, g7, g8⟩ := hg2
  simp only at g1 g2 g3 g4 g5 g6 g7 g8
  have hn : t * 1000000000 / dayNs = t / 86400 := by unfold dayNs; omega
  have hr : t * 1000000000 % dayNs / 1000000000 = t % 86400 := by unfold dayNs; omega
  have hv := (fromDays_spec (t / 86400)).1
  have hto := (fromDays_spec (t / 86400)).2
  rw [g1] at hv hto
  obtain ⟨v1, v2, v3, v4⟩ := hv
  simp only at v1 v2 v3 v4
  have v5 : mday ≤ 31 := by
    unfold monthLen at v4
    split_ifs at v4 <;> omega
  have e1 : toU8 (toU8 mon + 1) = mon + 1 := by unfold toU8; omega
  have e2 : toU8 mday = mday := by unfold toU8; omega
  have e3 : toU8 hour = hour := by unfold toU8; omega
  have e4 : toU8 min = min := by unfold toU8; omega
  have e5 : toU8 sec = sec := by unfold toU8; omega
  have e6 : toU8 wday = wday := by unfold toU8; unfold weekdayOf at g5; omega
  have e7 : toU16 yday = yday := by unfold toU16; omega
  have e8 : toU16 ((mday - 1).tdiv 7) = (mday - 1) / 7 := by
    rw [Int.tdiv_eq_ediv_of_nonneg (by omega)]; unfold toU16; omega
  simp only [e1, e2, e3, e4, e5, e6, e7, e8, hto]
  -- the first day of a quarter
  have hq : ∀ q : Int, 1 ≤ q → q ≤ 4 → 3 * q - 2 ≤ mon + 1 → mon + 1 ≤ 3 * q →
      1 ≤ t / 86400 - DateH.toDays ⟨year + 1900, 3 * q - 2, 1⟩ + 1 ∧
      t / 86400 - DateH.toDays ⟨year + 1900, 3 * q - 2, 1⟩ + 1 ≤ 92 ∧
      DateH.fromDays (DateH.toDays ⟨year + 1900, 3 * q - 2, 1⟩) = ⟨year + 1900, 3 * q - 2, 1⟩ := by
    intro q q1 q4 qa qb
    refine ⟨?_, ?_, ?_⟩
    · rw [← hto, toDays_flat, toDays_flat]
      simp only
      have hs := marchBase_step (year + 1900)
      have hq' : q = 1 ∨ q = 2 ∨ q = 3 ∨ q = 4 := by omega
      rcases hq' with rfl | rfl | rfl | rfl
      · have : mon = 0 ∨ mon = 1 ∨ mon = 2 := by omega
        rcases this with rfl | rfl | rfl <;> simp <;> (try omega)
      · have : mon = 3 ∨ mon = 4 ∨ mon = 5 := by omega
        rcases this with rfl | rfl | rfl <;> simp <;> (try omega)
      · have : mon = 6 ∨ mon = 7 ∨ mon = 8 := by omega
        rcases this with rfl | rfl | rfl <;> simp <;> (try omega)
      · have : mon = 9 ∨ mon = 10 ∨ mon = 11 := by omega
        rcases this with rfl | rfl | rfl <;> simp <;> (try omega)
    · rw [← hto, toDays_flat, toDays_flat]
      simp only
      have hs := marchBase_step (year + 1900)
      have hq' : q = 1 ∨ q = 2 ∨ q = 3 ∨ q = 4 := by omega
      unfold monthLen at v4
      rcases hq' with rfl | rfl | rfl | rfl
      · have : mon = 0 ∨ mon = 1 ∨ mon = 2 := by omega
        rcases this with rfl | rfl | rfl <;> simp at v4 ⊢ <;> (try omega)
      · have : mon = 3 ∨ mon = 4 ∨ mon = 5 := by omega
        rcases this with rfl | rfl | rfl <;> simp at v4 ⊢ <;> (try omega)
      · have : mon = 6 ∨ mon = 7 ∨ mon = 8 := by omega
        rcases this with rfl | rfl | rfl <;> simp at v4 ⊢ <;> (try omega)
      · have : mon = 9 ∨ mon = 10 ∨ mon = 11 := by omega
        rcases this with rfl | rfl | rfl <;> simp at v4 ⊢ <;> (try omega)
    · refine fromDays_toDays _ ⟨by simp only; omega, by simp only; omega, by simp, ?_⟩
      simp only
      unfold monthLen
      split_ifs <;> omega
  have hiso := isoWeek_spec (t / 86400)
  have hw8 : toU8 (IsoWeek.fromDays (t / 86400)).2 = (IsoWeek.fromDays (t / 86400)).2 := by
    obtain ⟨⟨_, _, _, _, _, _, _, _, _, _, h⟩, h'⟩ := hiso
    unfold toU8
    omega
  -- the quarter of the month
  obtain ⟨q, hqq⟩ : ∃ q, (mon + 1 + 2) / 3 = q := ⟨_, rfl⟩
  have q1 : 1 ≤ q := by omega
  have q4 : q ≤ 4 := by omega
  have qa : 3 * q - 2 ≤ mon + 1 := by omega
  have qb : mon + 1 ≤ 3 * q := by omega
  obtain ⟨qc, qd, qe⟩ := hq q q1 q4 qa qb
  have hdq : (if mon + 1 ≤ 3 then toU8 (t / 86400 - DateH.toDays ⟨year + 1900, 1, 1⟩ + 1)
      else if mon + 1 ≤ 6 then toU8 (t / 86400 - DateH.toDays ⟨year + 1900, 4, 1⟩ + 1)
      else if mon + 1 ≤ 9 then toU8 (t / 86400 - DateH.toDays ⟨year + 1900, 7, 1⟩ + 1)
      else toU8 (t / 86400 - DateH.toDays ⟨year + 1900, 10, 1⟩ + 1))
      = t / 86400 - DateH.toDays ⟨year + 1900, 3 * q - 2, 1⟩ + 1 := by
    have : (if mon + 1 ≤ 3 then toU8 (t / 86400 - DateH.toDays ⟨year + 1900, 1, 1⟩ + 1)
      else if mon + 1 ≤ 6 then toU8 (t / 86400 - DateH.toDays ⟨year + 1900, 4, 1⟩ + 1)
      else if mon + 1 ≤ 9 then toU8 (t / 86400 - DateH.toDays ⟨year + 1900, 7, 1⟩ + 1)
      else toU8 (t / 86400 - DateH.toDays ⟨year + 1900, 10, 1⟩ + 1))
      = toU8 (t / 86400 - DateH.toDays ⟨year + 1900, 3 * q - 2, 1⟩ + 1) := by
      have hq' : q = 1 ∨ q = 2 ∨ q = 3 ∨ q = 4 := by omega
      rcases hq' with rfl | rfl | rfl | rfl
      · rw [if_pos (by omega)]; rfl
      · rw [if_neg (by omega), if_pos (by omega)]; rfl
      · rw [if_neg (by omega), if_neg (by omega), if_pos (by omega)]; rfl
      · rw [if_neg (by omega), if_neg (by omega), if_neg (by omega)]; rfl
    rw [this]
    unfold toU8
    omega
  have e9 : toU8 q = q := by unfold toU8; omega
  rw [hdq, hw8]
  simp only [hqq, e9]
  refine ⟨_, rfl, ?_, hiso.1, rfl⟩
  constructor
  · rw [hn]; exact g1
  · simp only; omega
  · simp only; omega
  · rw [hr]; simp only; omega
  · rfl
  · simp only
    split_ifs <;> simp_all
  · simp only
    have h12 : (if hour ≤ 12 then hour else toU8 (hour - 12)) =
        if hour ≤ 12 then hour else hour - 12 := by
      split_ifs
      · rfl
      · unfold toU8; omega
    rw [h12]
    split_ifs <;> omega
  · rw [hn]; exact g5
  · rw [hn]; simp only [g5]; rfl
  · rfl
  · exact ⟨qa, qb⟩
  · exact ⟨q1, q4⟩
  · rw [hn]
    simp only
    rw [show t / 86400 - (t / 86400 - DateH.toDays ⟨year + 1900, 3 * q - 2, 1⟩ + 1 - 1)
      = DateH.toDays ⟨year + 1900, 3 * q - 2, 1⟩ by omega]
    exact qe
  · exact ⟨qc, qd⟩
  · simp only
    split_ifs <;> omega
  · rw [hn]; exact g6
  · exact ⟨g7, g8⟩
  · simp only; omega
  · simp only; omega

theorem Describes_congr {cal : Int → CDate} {a b : Int} {tp : TimeParts}
    (h : tp.Describes cal a) (h1 : a / dayNs = b / dayNs)
    (h2 : a % dayNs / 1000000000 = b % dayNs / 1000000000) : tp.Describes cal b := by
  obtain ⟨a1, a2, a3, a4, a5, a6, a7, a8, a9, a10, a11, a12, a13, a14, a15, a16, a17, a18, a19⟩ := h
  rw [h1] at a1 a8 a9 a13 a16
  rw [h2] at a4
  exact ⟨a1, a2, a3, a4, a5, a6, a7, a8, a9, a10, a11, a12, a13, a14, a15, a16, a17, a18, a19⟩

/-- C49 as stated: every instant is decomposed as the calendar says. -/
def C49Claim : Prop :=
  ∀ (cal : Int → CDate) (gmtime : Int → Option Tm), IsCalendar cal → IsGmtime cal gmtime →
    ∀ ns : Int, -(2 ^ 63) ≤ ns → ns < 2 ^ 63 →
      ∃ tp, TimeParts.ofTime gmtime ns = .ok tp ∧ tp.Describes cal ns

/-- C49, proved part: instants from 1970 on, and earlier ones on a whole second. -/
theorem C49_decomposition_partial (cal : Int → CDate) (gmtime : Int → Option Tm)
    (hcal : IsCalendar cal) (hg : IsGmtime cal gmtime) (ns : Int) (h1 : -(2 ^ 63) ≤ ns)
    (h2 : ns < 2 ^ 63) (h : 0 ≤ ns ∨ (1000000000 : Int) ∣ ns) :
    ∃ tp, TimeParts.ofTime gmtime ns = .ok tp ∧ tp.Describes cal ns := by
  obtain ⟨tp, t1, t2, -, -⟩ := ofTime_spec cal gmtime hcal hg ns h1 h2
  refine ⟨tp, t1, Describes_congr t2 ?_ ?_⟩
  all_goals
    unfold dayNs
    rcases Int.lt_or_le ns 0 with hn | hn
    · rw [tdiv_neg hn]; omega
    · rw [Int.tdiv_eq_ediv_of_nonneg hn]; omega

/-- What happens to the other instants: they are moved to the end of their second. -/
theorem C49_early_fractions (cal : Int → CDate) (gmtime : Int → Option Tm)
    (hcal : IsCalendar cal) (hg : IsGmtime cal gmtime) (ns : Int) (h1 : -(2 ^ 63) ≤ ns)
    (h2 : ns < 0) (h : ¬ (1000000000 : Int) ∣ ns) :
    ∃ tp, TimeParts.ofTime gmtime ns = .ok tp ∧
      tp.Describes cal ((ns / 1000000000 + 1) * 1000000000) := by
  obtain ⟨tp, t1, t2, -, -⟩ := ofTime_spec cal gmtime hcal hg ns h1 (by omega)
  refine ⟨tp, t1, ?_⟩
  rw [tdiv_neg h2] at t2
  rwa [show -(-ns / 1000000000) = ns / 1000000000 + 1 by omega] at t2

/-- A `gmtime_r` that meets the contract. -/
def gmtimeRef (t : Int) : Option Tm :=
  let x := DateH.fromDays (t / 86400)
  some ⟨x.y - 1900, x.m - 1, x.d, t % 86400 / 3600, t % 3600 / 60, t % 60, weekdayOf (t / 86400),
    t / 86400 - jan1 x.y⟩

theorem gmtimeRef_isGmtime : IsGmtime DateH.fromDays gmtimeRef := by
  intro t _ _
  refine ⟨_, rfl, ?_⟩
  have b := (year_iff (t / 86400) _).1 rfl
  have s := jan1_step (DateH.fromDays (t / 86400)).y
  constructor
  · simp only
    rw [show ∀ a : Int, a - 1900 + 1900 = a by omega, show ∀ a : Int, a - 1 + 1 = a by omega]
  · rfl
  · rfl
  · rfl
  · rfl
  · simp only
    rw [show ∀ a : Int, a - 1900 + 1900 = a by omega, show ∀ a b : Int, a - (a - b) = b by omega]
    exact fromDays_toDays _ ⟨by simp, by simp, by simp, by simp [monthLen]⟩
  · simp only; omega
  · simp only
    split_ifs at s <;> omega

/-- C49 fails half a second before 1970: the output says 1970-01-01T00:00:00. -/
theorem C49_false : ¬ C49Claim := by
  intro h
  obtain ⟨tp, t1, t2⟩ := h DateH.fromDays gmtimeRef fromDays_isCalendar gmtimeRef_isGmtime
    (-500000000) (by decide) (by decide)
  have hy : (TimeParts.ofTime gmtimeRef (-500000000)).toOption.map (·.year) = some 1970 := by
    decide +kernel
  rw [t1] at hy
  have hd := t2.date
  have h1 : DateH.fromDays (-500000000 / dayNs) = ⟨1969, 12, 31⟩ := by decide +kernel
  rw [h1] at hd
  have hy' : tp.year = 1970 := by simpa [Except.toOption] using hy
  have := congrArg CDate.y hd
  simp only [hy'] at this
  exact absurd this (by decide)

/-- The hypotheses of C49 hold of a calendar and a conversion; 2020-02-29T13:05:59.25Z. -/
example : IsCalendar DateH.fromDays ∧ IsGmtime DateH.fromDays gmtimeRef ∧
    (TimeParts.ofTime gmtimeRef 1582981559250000000).toOption.map
      (fun tp => (tp.year, tp.month, tp.day, tp.hour, tp.minute, tp.second, tp.hour12)) =
    some (2020, 2, 29, 13, 5, 59, 1) ∧
    (TimeParts.ofTime gmtimeRef 1582981559250000000).toOption.map
      (fun tp => (tp.dayOfQuarter, tp.dayOfYear, tp.weekIso, tp.yearIso, tp.dayOfWeekLabel)) =
    some (60, 59, 9, 2020, "Saturday") :=
  ⟨fromDays_isCalendar, gmtimeRef_isGmtime, rfl, rfl⟩

/-! ### C57: the numbering that the header documents -/

/-- C57 as stated: days of the week are numbered from 0 (Monday) and days of the year from 1. -/
def C57Claim : Prop :=
  ∀ (cal : Int → CDate) (gmtime : Int → Option Tm), IsCalendar cal → IsGmtime cal gmtime →
    ∀ ns : Int, 0 ≤ ns → ns < 2 ^ 63 → ∀ tp, TimeParts.ofTime gmtime ns = .ok tp →
      (tp.dayOfWeek = 0 ↔ tp.dayOfWeekLabel = "Monday") ∧ 1 ≤ tp.dayOfYear

/-- C57 is false on both counts, on 2017-01-01, a Sunday. -/
theorem C57_false : ¬ C57Claim := by
  intro h
  obtain ⟨tp, t1, -⟩ := C49_decomposition_partial DateH.fromDays gmtimeRef fromDays_isCalendar
    gmtimeRef_isGmtime 1483228800000000000 (by decide) (by decide) (by decide)
  have h2 := (h DateH.fromDays gmtimeRef fromDays_isCalendar gmtimeRef_isGmtime
    1483228800000000000 (by decide) (by decide) tp t1).2
  have hy : (TimeParts.ofTime gmtimeRef 1483228800000000000).toOption.map (·.dayOfYear) = some 0 := by
    decide +kernel
  rw [t1] at hy
  have hy' : tp.dayOfYear = 0 := by simpa [Except.toOption] using hy
  rw [hy'] at h2
  exact absurd h2 (by decide)

/-- C57, what holds instead: days of the week count from 0 (Sunday) and days of the year from 0, so
on every instant the first is one more than documented (0 instead of 6 on Sundays) and the second
one less. -/
theorem C57_numbering_partial (cal : Int → CDate) (gmtime : Int → Option Tm) (hcal : IsCalendar cal)
    (hg : IsGmtime cal gmtime) (ns : Int) (h1 : 0 ≤ ns) (h2 : ns < 2 ^ 63) :
    ∃ tp, TimeParts.ofTime gmtime ns = .ok tp ∧
      (tp.dayOfWeek = 0 ↔ tp.dayOfWeekLabel = "Sunday") ∧
      (tp.dayOfWeek = 1 ↔ tp.dayOfWeekLabel = "Monday") ∧
      (tp.dayOfWeek = 6 ↔ tp.dayOfWeekLabel = "Saturday") ∧
      (tp.dayOfYear = 0 ↔ tp.month = 1 ∧ tp.day = 1) := by
  obtain ⟨tp, t1, t2⟩ := C49_decomposition_partial cal gmtime hcal hg ns (by omega) h2 (Or.inl h1)
  refine ⟨tp, t1, ?_⟩
  have a := t2.dayOfWeek
  have b := t2.dayOfWeekLabel
  rw [a, b]
  have hw : weekdayOf (ns / dayNs) = 0 ∨ weekdayOf (ns / dayNs) = 1 ∨ weekdayOf (ns / dayNs) = 2 ∨
      weekdayOf (ns / dayNs) = 3 ∨ weekdayOf (ns / dayNs) = 4 ∨ weekdayOf (ns / dayNs) = 5 ∨
      weekdayOf (ns / dayNs) = 6 := by
    unfold weekdayOf; omega
  have hy : tp.dayOfYear = 0 ↔ tp.month = 1 ∧ tp.day = 1 := by
    have hd := t2.date
    have hj := t2.dayOfYear
    constructor
    · intro h0
      rw [h0, Int.sub_zero, hd] at hj
      exact ⟨congrArg CDate.m hj, congrArg CDate.d hj⟩
    · rintro ⟨hm, hd'⟩
      rw [hm, hd'] at hd
      have := hcal.eq
      subst this
      have e : DateH.toDays (DateH.fromDays (ns / dayNs)) =
          DateH.toDays (DateH.fromDays (ns / dayNs - tp.dayOfYear)) := by rw [hd, hj]
      rw [(fromDays_spec _).2, (fromDays_spec _).2] at e
      omega
  refine ⟨?_, ?_, ?_, hy⟩ <;>
    rcases hw with h | h | h | h | h | h | h <;> rw [h] <;> decide

/-! ### C58 -/

/-- C58 as stated: every instant gets the ISO week of its own day. -/
def C58Claim : Prop :=
  ∀ (cal : Int → CDate) (gmtime : Int → Option Tm), IsCalendar cal → IsGmtime cal gmtime →
    ∀ ns : Int, -(2 ^ 63) ≤ ns → ns < 2 ^ 63 →
      ∃ tp, TimeParts.ofTime gmtime ns = .ok tp ∧ IsIsoWeek cal (ns / dayNs) tp.yearIso tp.weekIso

/-- C58, proved part: instants from 1970 on and earlier ones on a whole second. -/
theorem C58_isoWeek_partial (cal : Int → CDate) (gmtime : Int → Option Tm)
    (hcal : IsCalendar cal) (hg : IsGmtime cal gmtime) (ns : Int) (h1 : -(2 ^ 63) ≤ ns)
    (h2 : ns < 2 ^ 63) (h : 0 ≤ ns ∨ (1000000000 : Int) ∣ ns) :
    ∃ tp, TimeParts.ofTime gmtime ns = .ok tp ∧
      IsIsoWeek cal (ns / dayNs) tp.yearIso tp.weekIso := by
  obtain ⟨tp, t1, -, t3, -⟩ := ofTime_spec cal gmtime hcal hg ns h1 h2
  refine ⟨tp, t1, ?_⟩
  have : ns / dayNs = ns.tdiv 1000000000 / 86400 := by
    unfold dayNs
    rcases Int.lt_or_le ns 0 with hn | hn
    · rw [tdiv_neg hn]; omega
    · rw [Int.tdiv_eq_ediv_of_nonneg hn]; omega
  rwa [this]

/-- A day has one ISO week only. -/
theorem IsIsoWeek.unique {cal : Int → CDate} (hcal : IsCalendar cal) {n y w y' w' : Int}
    (h : IsIsoWeek cal n y w) (h' : IsIsoWeek cal n y' w') : y = y' ∧ w = w' := by
  have := hcal.eq
  subst this
  obtain ⟨m, f, a1, a2, a3, a4, a5, a6, a7, a8, a9⟩ := h
  obtain ⟨m', f', b1, b2, b3, b4, b5, b6, b7, b8, b9⟩ := h'
  have hm : m = m' := by unfold weekdayOf at *; omega
  subst hm
  have hy : y = y' := by rw [← a4, ← b4]
  subst hy
  refine ⟨rfl, ?_⟩
  -- the first Thursdays agree
  have c1 := (year_iff _ _).1 a6
  have c2 := (year_iff _ _).1 b6
  have c3 : f - 7 < jan1 y := by
    rcases Int.lt_or_le (f - 7) (jan1 y) with h | h
    · exact h
    · have := (year_iff (f - 7) y).2 ⟨h, by omega⟩
      omega
  have c4 : f' - 7 < jan1 y := by
    rcases Int.lt_or_le (f' - 7) (jan1 y) with h | h
    · exact h
    · have := (year_iff (f' - 7) y).2 ⟨h, by omega⟩
      omega
  have : f = f' := by unfold weekdayOf at *; omega
  omega

/-- C58 fails half a second before Monday
1969-12-29, on a Sunday in ISO week 1969-W52: the output says 1970-W01. -/
theorem C58_false : ¬ C58Claim := by
  intro h
  obtain ⟨tp, t1, t2⟩ := h DateH.fromDays gmtimeRef fromDays_isCalendar gmtimeRef_isGmtime
    (-259200500000000) (by decide) (by decide)
  have hy : (TimeParts.ofTime gmtimeRef (-259200500000000)).toOption.map (·.yearIso)
      = some 1970 := by
    decide +kernel
  rw [t1] at hy
  have hy' : tp.yearIso = 1970 := by simpa [Except.toOption] using hy
  have h1 := (isoWeek_spec (-4)).1
  have h2 : IsoWeek.fromDays (-4) = (1969, 52) := by decide +kernel
  rw [h2] at h1
  rw [show (-259200500000000 : Int) / dayNs = -4 by decide] at t2
  have := (IsIsoWeek.unique fromDays_isCalendar t2 h1).1
  omega

/-- 2021-01-03, a Sunday, is in week 53 of 2020; 2024-12-30, a Monday, in week 1 of 2025. -/
example : IsoWeek.fromDays 18630 = (2020, 53) ∧ IsoWeek.fromDays 20087 = (2025, 1) := by
  decide +kernel

end Feat
