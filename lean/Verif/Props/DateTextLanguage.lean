import Verif.Props.DateTextLong
/-
**C65** Which texts are accepted as date and time in universal time, and what they mean.
-/
namespace Feat.DateText

/-! ### Digits -/

theorem isDigit_toNat {c : UInt8} (h : isDigit c = true) : 48 ≤ c.toNat ∧ c.toNat ≤ 57 := by
  simp only [isDigit, decide_eq_true_eq] at h
  exact ⟨UInt8.le_iff_toNat_le.1 h.1, UInt8.le_iff_toNat_le.1 h.2⟩

theorem numeral_of {ds : List UInt8} (h : ∀ c ∈ ds, isDigit c = true) : Numeral ds (digitsVal ds) := by
  induction ds using List.reverseRecOn with
  | nil => exact .none
  | append_singleton ds c ih =>
    have hc := isDigit_toNat (h c (by simp))
    have := Numeral.digit (c.toNat - 48) (ih fun c hc => h c (by simp [hc])) (by omega)
    rw [show 48 + (c.toNat - 48) = c.toNat by omega, UInt8.ofNat_toNat] at this
    rwa [digitsVal_append]

theorem numeral_iff {ds : List UInt8} {n : Nat} : Numeral ds n ↔ (∀ c ∈ ds, isDigit c = true) ∧ digitsVal ds = n := by
  constructor
  · intro h
    induction h with
    | none => exact ⟨by simp, rfl⟩
    | digit d _ hd ih =>
      have e : UInt8.ofNat (48 + d) = digitChar d := by simp [digitChar, Nat.mod_eq_of_lt hd]
      refine ⟨fun c hc => ?_, ?_⟩
      · rw [List.mem_append, List.mem_singleton] at hc
        rcases hc with hc | rfl
        · exact ih.1 c hc
        · rw [e]; exact digitChar_isDigit d
      · rw [digitsVal_append, ih.2, e, digitChar_toNat]
        omega
  · rintro ⟨h, rfl⟩
    exact numeral_of h

/-! ### What is read is a numeral -/

theorem takeDigits_sound (M : Nat) (s : List UInt8) : s = (takeDigits M s).1 ++ (takeDigits M s).2.rest ∧
    (∀ c ∈ (takeDigits M s).1, isDigit c = true) ∧ (takeDigits M s).1.length ≤ M := by
  induction M generalizing s with
  | zero => simp [takeDigits]
  | succ M ih =>
    cases s with
    | nil => simp [takeDigits]
    | cons c s =>
      obtain ⟨h1, h2, h3⟩ := ih s
      by_cases hc : isDigit c = true
      · simp only [takeDigits, if_pos hc]
        refine ⟨?_, ?_, ?_⟩
        · rw [List.cons_append, ← h1]
        · intro d hd
          rcases List.mem_cons.1 hd with rfl | hd
          · exact hc
          · exact h2 d hd
        · simpa using h3
      · simp [takeDigits, hc]

theorem readUnsigned_sound {M : Nat} {s : List UInt8} {v : Int} {st : Stream} (h : readUnsigned 1 M s = some (v, st)) :
    ∃ ds n, v = ((n : Nat) : Int) ∧ s = ds ++ st.rest ∧ Unsigned M ds n := by
  obtain ⟨h1, h2, h3⟩ := takeDigits_sound M s
  simp only [readUnsigned] at h
  split at h
  · cases h
  · rename_i hl
    injection h with h
    injection h with hv hst
    subst hst
    exact ⟨_, _, hv.symm, h1, numeral_of h2, by omega, h3⟩

theorem readSigned_sound {M : Nat} {s : List UInt8} {v : Int} {st : Stream} (h : readSigned 1 M s = some (v, st)) :
    ∃ ds, s = ds ++ st.rest ∧ Signed M ds v := by
  cases s with
  | nil => cases h
  | cons c cs =>
    simp only [readSigned] at h
    split_ifs at h with h1 h2 h3
    · obtain ⟨ds, n, rfl, e, hu⟩ := readUnsigned_sound h
      exact ⟨ds, e, .plain hu⟩
    · rw [Option.map_eq_some_iff] at h
      obtain ⟨⟨v', st'⟩, h, e⟩ := h
      obtain ⟨ds, n, rfl, e', hu⟩ := readUnsigned_sound h
      injection e with e1 e2
      subst e2 e1 h2
      exact ⟨45 :: ds, by rw [List.cons_append, ← e'], .minus hu⟩
    · obtain ⟨ds, n, rfl, e, hu⟩ := readUnsigned_sound h
      subst h3
      exact ⟨43 :: ds, by rw [List.cons_append, ← e], .plus hu⟩

theorem readChar_sound {a : UInt8} {s : List UInt8} {st : Stream} (h : readChar a s = some st) : s = a :: st.rest := by
  cases s with
  | nil => cases h
  | cons c cs =>
    simp only [readChar] at h
    split_ifs at h with hc
    injection h with h
    rw [← h, hc]

theorem takeDecimal_sound (p : Bool) (M : Nat) (s : List UInt8) :
    s = (takeDecimal p M s).1 ++ (takeDecimal p M s).2.rest ∧ (takeDecimal p M s).1.length ≤ M ∧
    ((∀ c ∈ (takeDecimal p M s).1, isDigit c = true) ∨
      p = true ∧ ∃ a b, (takeDecimal p M s).1 = a ++ 46 :: b ∧ ∀ c ∈ a ++ b, isDigit c = true) := by
  induction M generalizing s p with
  | zero => simp [takeDecimal]
  | succ M ih =>
    cases s with
    | nil => simp [takeDecimal]
    | cons c s =>
      simp only [takeDecimal]
      split_ifs with h1 h2
      · obtain ⟨i1, i2, i3⟩ := ih false s
        refine ⟨by rw [List.cons_append, ← i1], by simpa using i2, .inr ⟨h1.1, [], _, by rw [h1.2]; rfl, ?_⟩⟩
        rcases i3 with i3 | i3
        · simpa using i3
        · cases i3.1
      · obtain ⟨i1, i2, i3⟩ := ih p s
        refine ⟨by rw [List.cons_append, ← i1], by simpa using i2, ?_⟩
        rcases i3 with i3 | ⟨hp, a, b, e, i3⟩
        · left
          intro d hd
          rcases List.mem_cons.1 hd with rfl | hd
          · exact h2
          · exact i3 d hd
        · refine .inr ⟨hp, c :: a, b, by simp [e], ?_⟩
          intro d hd
          rcases List.mem_cons.1 hd with rfl | hd
          · exact h2
          · exact i3 d hd
      · simp

theorem roundDiv_near (n d : Nat) (hd : 0 < d) : 2 * n ≤ (2 * roundDiv n d + 1) * d ∧ 2 * roundDiv n d * d ≤ 2 * n + d := by
  have h1 := Nat.div_add_mod n d
  have h2 := Nat.mod_lt n hd
  have e1 : ∀ k, (2 * k + 1) * d = 2 * (d * k) + d := fun k => by ring
  have e2 : ∀ k, 2 * k * d = 2 * (d * k) := fun k => by ring
  have e3 : d * (n / d + 1) = d * (n / d) + d := by ring
  simp only [roundDiv]
  split_ifs <;> rw [e1, e2] <;> (try rw [e3]) <;> omega

theorem takeWhile_all {s : List UInt8} (h : ∀ c ∈ s, c ≠ 46) : s.takeWhile (· ≠ 46) = s := by
  induction s with
  | nil => rfl
  | cons c s ih =>
    have hc := h c (by simp)
    have := ih fun c hc => h c (by simp [hc])
    simp [hc] at this ⊢
    exact this

theorem dropWhile_all {s : List UInt8} (h : ∀ c ∈ s, c ≠ 46) : s.dropWhile (· ≠ 46) = [] := by
  induction s with
  | nil => rfl
  | cons c s ih =>
    have hc := h c (by simp)
    have := ih fun c hc => h c (by simp [hc])
    simp [hc] at this ⊢
    exact this

theorem decimalTicks_sound {width : Nat} (hw : 0 < width) {buf : List UInt8} {t : Nat} (hl : buf.length ≤ secondsWidth width)
    (hb : (∀ c ∈ buf, isDigit c = true) ∨ ∃ a b, buf = a ++ 46 :: b ∧ ∀ c ∈ a ++ b, isDigit c = true)
    (h : decimalTicks (10 ^ width) buf = .ok t) : Seconds width buf t := by
  have hsw : secondsWidth width = width + 3 := by simp only [secondsWidth, show ¬ width = 0 by omega, if_false]; omega
  rw [hsw] at hl
  have ne : ∀ c : UInt8, isDigit c = true → c ≠ 46 := by
    rintro c hc rfl
    exact absurd hc (by decide)
  rcases hb with hb | ⟨a, b, rfl, hb⟩
  · have e1 : buf.takeWhile (· ≠ 46) = buf := takeWhile_all (fun c hc => ne c (hb c hc))
    have e2 : buf.dropWhile (· ≠ 46) = [] := dropWhile_all (fun c hc => ne c (hb c hc))
    simp only [decimalTicks, e1, e2, List.drop_nil, List.append_nil] at h
    split_ifs at h with h0
    injection h with h
    have hr := roundDiv_exact (digitsVal buf * 10 ^ width) 1 (by decide)
    rw [Nat.mul_one] at hr
    rw [← h]
    simp only [List.length_nil, Nat.pow_zero]
    rw [hr]
    exact .whole ⟨numeral_of hb, List.length_pos_iff.2 h0, hl⟩
  · have hda : ∀ c ∈ a, c ≠ 46 := fun c hc => ne c (hb c (by simp [hc]))
    have e1 : (a ++ 46 :: b).takeWhile (· ≠ 46) = a := by
      rw [List.takeWhile_append_of_pos (by simpa using hda)]
      simp
    have e2 : (a ++ 46 :: b).dropWhile (· ≠ 46) = 46 :: b := by
      rw [List.dropWhile_append_of_pos (by simpa using hda)]
      simp
    simp only [decimalTicks, e1, e2, List.drop_succ_cons, List.drop_zero] at h
    split_ifs at h with h0
    injection h with h
    have hu : Unsigned (width + 2) (a ++ b) (digitsVal (a ++ b)) :=
      ⟨numeral_of hb, List.length_pos_iff.2 h0, by simp at hl ⊢; omega⟩
    by_cases hbw : b.length ≤ width
    · have : digitsVal (a ++ b) * 10 ^ width = digitsVal (a ++ b) * 10 ^ (width - b.length) * 10 ^ b.length := by
        rw [Nat.mul_assoc, ← Nat.pow_add, show width - b.length + b.length = width by omega]
      rw [this, roundDiv_exact _ _ (Nat.pow_pos (by decide))] at h
      rw [← h]
      exact .decimals hu hbw
    · have := roundDiv_near (digitsVal (a ++ b) * 10 ^ width) (10 ^ b.length) (Nat.pow_pos (by decide))
      rw [h] at this
      exact .rounded hu (by omega) (by rw [Nat.mul_assoc]; exact this.1) (by rw [Nat.mul_assoc 2 (digitsVal _)]; exact this.2)

/-! ### The loop over the template -/

theorem readItem_error {q width : Nat} {it : Item} {s : List UInt8} {f : Fields} {e : Err}
    (h : readItem q width it s f = .error e) : e = .invalidArgument := by
  have hd : ∀ {q buf} {e : Err}, decimalTicks q buf = .error e → e = .invalidArgument := by
    intro q buf e h
    simp only [decimalTicks] at h
    split_ifs at h
    injection h with h
    exact h.symm
  have num : ∀ {r : Option (Int × Stream)} {g : Int → Fields}, (match r with
      | none => (.error .invalidArgument : Except Err (Fields × Stream))
      | some (x, s') => .ok (g x, s')) = .error e → e = .invalidArgument := by
    intro r g h
    rcases r with _ | ⟨x, s'⟩
    · injection h with h; exact h.symm
    · cases h
  cases it <;> simp only [readItem] at h
  case second =>
    split_ifs at h
    · injection h with h; exact h.symm
    · rcases hx : decimalTicks q (takeDecimal true (secondsWidth width) s).1 with e' | t
      · rw [hx] at h
        injection h with h
        rw [← h]
        exact hd hx
      · rw [hx] at h; cases h
  case char c =>
    rcases hx : readChar c s with _ | s'
    · rw [hx] at h; injection h with h; exact h.symm
    · rw [hx] at h; cases h
  case blank => cases h
  all_goals exact num h

theorem readItems_error {q width : Nat} {its : List Item} {s : Stream} {f : Fields} {e : Err}
    (h : readItems q width its s f = .error e) : e = .invalidArgument := by
  induction its generalizing s f with
  | nil => cases h
  | cons it its ih =>
    simp only [readItems] at h
    split_ifs at h
    · injection h with h; exact h.symm
    · rcases hx : readItem q width it s.rest f with e' | ⟨f', s'⟩
      · rw [hx] at h
        injection h with h
        rw [← h]
        exact readItem_error hx
      · rw [hx] at h
        exact ih h

theorem readItems_ok {q width : Nat} {it : Item} {its : List Item} {s : Stream} {f g : Fields}
    (h : readItems q width (it :: its) s f = .ok g) :
    ∃ f' s', readItem q width it s.rest f = .ok (f', s') ∧ readItems q width its s' f' = .ok g := by
  simp only [readItems] at h
  split_ifs at h
  rcases hx : readItem q width it s.rest f with e' | ⟨f', s'⟩
  · rw [hx] at h; cases h
  · rw [hx] at h
    exact ⟨f', s', rfl, h⟩

theorem item_char_sound {q width : Nat} {c : UInt8} {s : List UInt8} {f f' : Fields} {st : Stream}
    (h : readItem q width (.char c) s f = .ok (f', st)) : s = c :: st.rest ∧ f' = f := by
  simp only [readItem] at h
  rcases hx : readChar c s with _ | s'
  · rw [hx] at h; cases h
  · rw [hx] at h
    injection h with h
    injection h with h1 h2
    subst h2
    exact ⟨readChar_sound hx, h1.symm⟩

theorem num_sound {r : Option (Int × Stream)} {g : Int → Fields} {f : Fields} {st : Stream}
    (h : (match r with
      | none => (.error .invalidArgument : Except Err (Fields × Stream))
      | some (x, s') => .ok (g x, s')) = .ok (f, st)) : ∃ x, r = some (x, st) ∧ f = g x := by
  rcases r with _ | ⟨x, s'⟩
  · cases h
  · injection h with h
    injection h with h1 h2
    exact ⟨x, by rw [h2], h1.symm⟩

theorem item_second_sound {width : Nat} (hw : 0 < width) {s : List UInt8} {f f' : Fields} {st : Stream}
    (h : readItem (10 ^ width) width .second s f = .ok (f', st)) :
    ∃ sec t, s = sec ++ st.rest ∧ Seconds width sec t ∧ f' = { f with ticks := t } := by
  simp only [readItem] at h
  split_ifs at h with hl
  rcases hx : decimalTicks (10 ^ width) (takeDecimal true (secondsWidth width) s).1 with e' | t
  · rw [hx] at h; cases h
  · rw [hx] at h
    injection h with h
    injection h with h1 h2
    obtain ⟨i1, i2, i3⟩ := takeDecimal_sound true (secondsWidth width) s
    subst h2
    exact ⟨_, t, i1, decimalTicks_sound hw i2 (i3.imp_right fun h => h.2) hx, h1.symm⟩

theorem isLeap_int (y : Int) : DateH.isLeap y = true ↔ leapYear y := by
  rw [leapYear_iff]
  have e4 : y.tmod 4 = 0 ↔ y % 4 = 0 := by rw [← Int.dvd_iff_tmod_eq_zero]; omega
  have e100 : y.tmod 100 = 0 ↔ y % 100 = 0 := by rw [← Int.dvd_iff_tmod_eq_zero]; omega
  have e400 : y.tmod 400 = 0 ↔ y % 400 = 0 := by rw [← Int.dvd_iff_tmod_eq_zero]; omega
  simp only [DateH.isLeap]
  simp [e4, e100, e400]

theorem lastDay_int (y : Int) (m : Int) (h1 : 1 ≤ m) (h12 : m ≤ 12) : DateH.lastDay y m = monthLen y m := by
  have hl := isLeap_int y
  have : m = 1 ∨ m = 2 ∨ m = 3 ∨ m = 4 ∨ m = 5 ∨ m = 6 ∨ m = 7 ∨ m = 8 ∨ m = 9 ∨ m = 10 ∨ m = 11 ∨ m = 12 := by omega
  rcases this with rfl | rfl | rfl | rfl | rfl | rfl | rfl | rfl | rfl | rfl | rfl | rfl
  all_goals try (simp [DateH.lastDay, monthLen]; done)
  by_cases h : leapYear y
  · simp [DateH.lastDay, monthLen, h, hl.2 h]
  · have : DateH.isLeap y = false := by
      cases e : DateH.isLeap y with
      | false => rfl
      | true => exact absurd (hl.1 e) h
    simp [DateH.lastDay, monthLen, h, this]

theorem dateOk_valid (f : Fields) : dateOk f = true ↔ CDate.Valid ⟨f.y, f.m, f.d⟩ := by
  rw [dateOk, decide_eq_true_iff]
  constructor
  · rintro ⟨h1, h2, h3, h4⟩
    rw [lastDay_int _ _ h1 h2] at h4
    exact ⟨h1, h2, h3, h4⟩
  · rintro ⟨h1, h2, h3, h4⟩
    refine ⟨h1, h2, h3, ?_⟩
    rw [lastDay_int _ _ h1 h2]
    exact h4

/-- The instant that is made of a date and a time of day that exist, in universal time. -/
def made (width : Nat) (n : Int) (hour minute ticks : Nat) : Except Err (TimePoint (10 ^ width)) :=
  let r : Int := (n * 86400 + hour * 3600 + minute * 60) * 10 ^ width + ticks
  if -2 ^ 63 ≤ n * 86400 * 10 ^ width ∧ r < 2 ^ 63 - 1 then .ok ⟨Int64.ofInt r⟩ else .error .ub

theorem instant_made (cal : Int → CDate) (hcal : IsCalendar cal) (width : Nat) (x : CDate) (h mi ticks : Nat) (n : Int) (hn : cal n = x) :
    instant (10 ^ width) ⟨x.y, x.m, x.d, h, mi, ticks, 0⟩ = made width n h mi ticks := by
  have hd : DateH.toDays ⟨x.y, x.m, x.d⟩ = n := by
    rw [hcal.eq] at hn
    rw [← hn]
    exact (fromDays_spec n).2
  simp only [instant, hd, made]
  have e1 : (n * 1440 - 0) * 60 * ((10 ^ width : Nat) : Int) = n * 86400 * 10 ^ width := by push_cast; ring
  have e2 : n * 86400 * 10 ^ width + ((h : Int) * 3600 + mi * 60) * ((10 ^ width : Nat) : Int) + (ticks : Int)
      = (n * 86400 + h * 3600 + mi * 60) * 10 ^ width + ticks := by push_cast; ring
  rw [e1, e2]

/-- **C65, only texts of the documented form are accepted**: a text with dashes, colons, `T` and `Z` is rejected as an invalid
argument unless it is a date that exists and a time of day between `T` and `Z`, written with one or two digits each (four in the
year), and then it means the instant it names. -/
theorem C65_accepts (cal : Int → CDate) (hcal : IsCalendar cal) (width : Nat) (hw : 0 < width) (s : List UInt8)
    (h45 : 45 ∈ s) (h58 : 58 ∈ s) (h84 : 84 ∈ s) (h90 : 90 ∈ s) (h : fromIso (10 ^ width) width s ≠ .error .invalidArgument) :
    ∃ x hour minute ticks n, UtcText width s x hour minute ticks ∧ cal n = x ∧ hour < 24 ∧ minute < 60 ∧ ticks < 60 * 10 ^ width ∧
      fromIso (10 ^ width) width s = made width n hour minute ticks := by
  have e : fromIso (10 ^ width) width s = fromStream (10 ^ width) width [.year, .char 45, .month, .char 45, .day, .char 84, .hour,
      .char 58, .minute, .char 58, .second, .char 90] s := by
    unfold fromIso
    rw [if_pos h45, if_pos h58, if_pos h84, if_pos h90, dropZoneColon, if_pos h90]
    rfl
  rw [e] at h ⊢
  unfold fromStream at h ⊢
  rcases hr : readItems (10 ^ width) width [.year, .char 45, .month, .char 45, .day, .char 84, .hour,
      .char 58, .minute, .char 58, .second, .char 90] ⟨s, false⟩ ⟨0, 0, 0, 0, 0, 0, 0⟩ with e' | f
  · rw [hr] at h
    exact absurd (congrArg Except.error (readItems_error hr)) h
  · rw [hr] at h
    simp only at h ⊢
    by_cases hok : (dateOk f && timeOk (10 ^ width) f) = true
    swap
    · rw [if_neg hok] at h; exact absurd rfl h
    rw [if_pos hok]
    obtain ⟨f1, s1, r1, hr⟩ := readItems_ok hr
    obtain ⟨f2, s2, r2, hr⟩ := readItems_ok hr
    obtain ⟨f3, s3, r3, hr⟩ := readItems_ok hr
    obtain ⟨f4, s4, r4, hr⟩ := readItems_ok hr
    obtain ⟨f5, s5, r5, hr⟩ := readItems_ok hr
    obtain ⟨f6, s6, r6, hr⟩ := readItems_ok hr
    obtain ⟨f7, s7, r7, hr⟩ := readItems_ok hr
    obtain ⟨f8, s8, r8, hr⟩ := readItems_ok hr
    obtain ⟨f9, s9, r9, hr⟩ := readItems_ok hr
    obtain ⟨f10, s10, r10, hr⟩ := readItems_ok hr
    obtain ⟨f11, s11, r11, hr⟩ := readItems_ok hr
    obtain ⟨f12, s12, r12, hr⟩ := readItems_ok hr
    injection hr with hr
    obtain ⟨vy, q1, rfl⟩ := num_sound r1
    obtain ⟨ty, t1, n1⟩ := readSigned_sound q1
    obtain ⟨t2, rfl⟩ := item_char_sound r2
    obtain ⟨vm, q3, rfl⟩ := num_sound r3
    obtain ⟨tm, t3, n3⟩ := readSigned_sound q3
    obtain ⟨t4, rfl⟩ := item_char_sound r4
    obtain ⟨vd, q5, rfl⟩ := num_sound r5
    obtain ⟨td, t5, n5⟩ := readSigned_sound q5
    obtain ⟨t6, rfl⟩ := item_char_sound r6
    obtain ⟨vh, q7, rfl⟩ := num_sound r7
    obtain ⟨th, nh, rfl, t7, n7⟩ := readUnsigned_sound q7
    obtain ⟨t8, rfl⟩ := item_char_sound r8
    obtain ⟨vmi, q9, rfl⟩ := num_sound r9
    obtain ⟨tmi, nmi, rfl, t9, n9⟩ := readUnsigned_sound q9
    obtain ⟨t10, rfl⟩ := item_char_sound r10
    obtain ⟨tsec, ticks, t11, n11, rfl⟩ := item_second_sound hw r11
    obtain ⟨t12, rfl⟩ := item_char_sound r12
    subst hr
    rw [Bool.and_eq_true, dateOk_valid] at hok
    have hv : CDate.Valid ⟨vy, vm, vd⟩ := hok.1
    have ht := hok.2
    rw [timeOk, decide_eq_true_iff] at ht
    have hn : cal (DateH.toDays ⟨vy, vm, vd⟩) = ⟨vy, vm, vd⟩ := by
      rw [hcal.eq]
      exact fromDays_toDays _ hv
    refine ⟨⟨vy, vm, vd⟩, nh, nmi, ticks, _, ⟨ty, tm, td, th, tmi, tsec, s12.rest, ?_, n1, n3, n5, n7, n9, n11⟩, hn, ?_, ?_, ?_,
      instant_made cal hcal width ⟨vy, vm, vd⟩ nh nmi ticks _ hn⟩
    · rw [← t12, ← t11, ← t10, ← t9, ← t8, ← t7, ← t6, ← t5, ← t4, ← t3, ← t2]
      exact t1
    · have := ht.1
      simp only at this
      omega
    · have := ht.2.1
      simp only at this
      omega
    · exact ht.2.2

/-! ### Conversely -/

theorem takeDigits_complete {M : Nat} {ds : List UInt8} {c : UInt8} {rest : List UInt8} (hd : ∀ c ∈ ds, isDigit c = true)
    (hl : ds.length ≤ M) (hc : isDigit c = false) : takeDigits M (ds ++ c :: rest) = (ds, ⟨c :: rest, false⟩) := by
  induction ds generalizing M with
  | nil => cases M <;> simp [takeDigits, hc]
  | cons d ds ih =>
    cases M with
    | zero => simp at hl
    | succ M =>
      have := ih (M := M) (fun c hc => hd c (by simp [hc])) (by simp at hl; omega)
      simp [takeDigits, hd d (by simp), this]

theorem readUnsigned_complete {M : Nat} {ds : List UInt8} {n : Nat} {c : UInt8} {rest : List UInt8} (h : Unsigned M ds n)
    (hc : isDigit c = false) : readUnsigned 1 M (ds ++ c :: rest) = some ((n : Int), ⟨c :: rest, false⟩) := by
  obtain ⟨h1, h2, h3⟩ := h
  obtain ⟨h4, h5⟩ := numeral_iff.1 h1
  simp only [readUnsigned, takeDigits_complete h4 h3 hc]
  rw [if_neg (by omega), h5]

theorem readSigned_complete {M : Nat} {ds : List UInt8} {v : Int} {c : UInt8} {rest : List UInt8} (h : Signed M ds v)
    (hc : isDigit c = false) : readSigned 1 M (ds ++ c :: rest) = some (v, ⟨c :: rest, false⟩) := by
  cases h with
  | plain h =>
    have hr := readUnsigned_complete (rest := rest) h hc
    obtain ⟨h1, h2, h3⟩ := h
    obtain ⟨h4, h5⟩ := numeral_iff.1 h1
    cases ds with
    | nil => simp at h2
    | cons d ds =>
      simp only [List.cons_append] at hr ⊢
      simp only [readSigned, h4 d (by simp), if_true]
      exact hr
  | plus h =>
    have hr := readUnsigned_complete (rest := rest) h hc
    simp only [List.cons_append, readSigned, hr]
    rfl
  | minus h =>
    have hr := readUnsigned_complete (rest := rest) h hc
    simp only [List.cons_append, readSigned, hr]
    rfl

theorem takeDecimal_complete (p : Bool) {M : Nat} {ds : List UInt8} {c : UInt8} {rest : List UInt8}
    (hd : ∀ c ∈ ds, isDigit c = true) (hl : ds.length ≤ M) (hc : isDigit c = false) (hp : c ≠ 46) :
    takeDecimal p M (ds ++ c :: rest) = (ds, ⟨c :: rest, false⟩) := by
  induction ds generalizing M with
  | nil => cases M <;> simp [takeDecimal, hc, hp]
  | cons d ds ih =>
    cases M with
    | zero => simp at hl
    | succ M =>
      have hd' := hd d (by simp)
      have h46 : d ≠ 46 := by rintro rfl; exact absurd hd' (by decide)
      have := ih (M := M) (fun c hc => hd c (by simp [hc])) (by simp at hl; omega)
      simp [takeDecimal, hd', h46, this]

theorem takeDecimal_point {M : Nat} {a b : List UInt8} {c : UInt8} {rest : List UInt8}
    (hd : ∀ c ∈ a ++ b, isDigit c = true) (hl : (a ++ 46 :: b).length ≤ M) (hc : isDigit c = false) (hp : c ≠ 46) :
    takeDecimal true M (a ++ 46 :: b ++ c :: rest) = (a ++ 46 :: b, ⟨c :: rest, false⟩) := by
  induction a generalizing M with
  | nil =>
    cases M with
    | zero => simp at hl
    | succ M =>
      have := takeDecimal_complete false (M := M) (rest := rest) (by simpa using hd) (by simp at hl; omega) hc hp
      simp [takeDecimal, this]
  | cons d a ih =>
    cases M with
    | zero => simp at hl
    | succ M =>
      have hd' := hd d (by simp)
      have h46 : d ≠ 46 := by rintro rfl; exact absurd hd' (by decide)
      have := ih (M := M) (fun c hc => hd c (by simp only [List.cons_append, List.mem_cons]; exact .inr hc)) (by simp at hl ⊢; omega)
      simp only [List.append_assoc, List.cons_append] at this ⊢
      simp [takeDecimal, hd', h46, this]

/-- Reading seconds succeeds, and gives a number of ticks that the text stands for: the one if nothing is rounded. -/
theorem item_second_complete {width : Nat} (hw : 0 < width) {sec : List UInt8} {t : Nat} (h : Seconds width sec t) {c : UInt8}
    {rest : List UInt8} (hc : isDigit c = false) (hp : c ≠ 46) (f : Fields) :
    ∃ t', Seconds width sec t' ∧ readItem (10 ^ width) width .second (sec ++ c :: rest) f
      = .ok ({ f with ticks := t' }, ⟨c :: rest, false⟩) := by
  have hsw : secondsWidth width = width + 3 := by simp only [secondsWidth, show ¬ width = 0 by omega, if_false]; omega
  have key : takeDecimal true (secondsWidth width) (sec ++ c :: rest) = (sec, ⟨c :: rest, false⟩) ∧
      1 ≤ sec.length ∧ sec.length ≤ secondsWidth width ∧
      ((∀ c ∈ sec, isDigit c = true) ∧ 1 ≤ sec.length ∨
        ∃ a b, sec = a ++ 46 :: b ∧ 1 ≤ (a ++ b).length ∧ ∀ c ∈ a ++ b, isDigit c = true) := by
    rw [hsw]
    cases h with
    | whole h =>
      have hd := (numeral_iff.1 h.1).1
      exact ⟨takeDecimal_complete true hd h.2.2 hc hp, h.2.1, h.2.2, .inl ⟨hd, h.2.1⟩⟩
    | @decimals a b n h hb =>
      have hd := (numeral_iff.1 h.1).1
      have hl : (a ++ 46 :: b).length ≤ width + 3 := by have := h.2.2; simp at this ⊢; omega
      exact ⟨takeDecimal_point hd hl hc hp, by simp; omega, hl, .inr ⟨a, b, rfl, h.2.1, hd⟩⟩
    | @rounded a b n _ h hb _ _ =>
      have hd := (numeral_iff.1 h.1).1
      have hl : (a ++ 46 :: b).length ≤ width + 3 := by have := h.2.2; simp at this ⊢; omega
      exact ⟨takeDecimal_point hd hl hc hp, by simp; omega, hl, .inr ⟨a, b, rfl, h.2.1, hd⟩⟩
  obtain ⟨k1, k2, k3, k4⟩ := key
  have ne : ∀ c : UInt8, isDigit c = true → c ≠ 46 := by
    rintro c hc rfl
    exact absurd hc (by decide)
  have ht : ∃ t', decimalTicks (10 ^ width) sec = .ok t' := by
    simp only [decimalTicks]
    rw [if_neg]
    · exact ⟨_, rfl⟩
    · rcases k4 with ⟨k4, k5⟩ | ⟨a, b, rfl, k5, k4⟩
      · have e1 : sec.takeWhile (· ≠ 46) = sec := takeWhile_all (fun c hc => ne c (k4 c hc))
        rw [e1]
        intro h0
        rw [(List.append_eq_nil_iff.1 h0).1] at k5
        simp at k5
      · have hda : ∀ c ∈ a, c ≠ 46 := fun c hc => ne c (k4 c (by simp [hc]))
        have e1 : (a ++ 46 :: b).takeWhile (· ≠ 46) = a := by
          rw [List.takeWhile_append_of_pos (by simpa using hda)]
          simp
        have e2 : (a ++ 46 :: b).dropWhile (· ≠ 46) = 46 :: b := by
          rw [List.dropWhile_append_of_pos (by simpa using hda)]
          simp
        rw [e1, e2]
        intro h0
        rw [List.drop_succ_cons, List.drop_zero] at h0
        rw [h0] at k5
        simp at k5
  obtain ⟨t', ht⟩ := ht
  refine ⟨t', decimalTicks_sound hw k3 (k4.imp (fun h => h.1) (fun ⟨a, b, h1, _, h2⟩ => ⟨a, b, h1, h2⟩)) ht, ?_⟩
  simp only [readItem, k1, ht]
  rw [if_neg (by omega)]

/-- **C65, all texts of the documented form are accepted** (the number of ticks is that of the text, one of the two nearest ones if
there are more decimals than the clock has). -/
theorem C65_accepted (cal : Int → CDate) (hcal : IsCalendar cal) (width : Nat) (hw : 0 < width) (s : List UInt8)
    {x : CDate} {hour minute ticks : Nat} (h : UtcText width s x hour minute ticks) :
    ∃ ticks', UtcText width s x hour minute ticks' ∧
      ∀ n, cal n = x → hour < 24 → minute < 60 → ticks' < 60 * 10 ^ width →
        fromIso (10 ^ width) width s = made width n hour minute ticks' := by
  obtain ⟨y, m, d, th, mi, sec, junk, rfl, h1, h2, h3, h4, h5, h6⟩ := h.texts
  have d45 : isDigit 45 = false := by decide
  have d58 : isDigit 58 = false := by decide
  have d84 : isDigit 84 = false := by decide
  have d90 : isDigit 90 = false := by decide
  obtain ⟨ticks', h7, h8⟩ := item_second_complete hw h6 (rest := junk) d90 (by decide) ⟨x.y, x.m, x.d, hour, minute, 0, 0⟩
  refine ⟨ticks', ⟨y, m, d, th, mi, sec, junk, rfl, h1, h2, h3, h4, h5, h7⟩, fun n hn hh hm ht => ?_⟩
  unfold fromIso
  rw [if_pos (by simp), if_pos (by simp), if_pos (by simp), if_pos (by simp), dropZoneColon, if_pos (by simp)]
  have hc := fun c rest f => item_char (10 ^ width) width c rest f
  simp only [List.cons_append, List.nil_append] at hc
  have i1 := fun rest f => (show readItem (10 ^ width) width .year (y ++ 45 :: rest) f = .ok ({ f with y := x.y }, ⟨45 :: rest, false⟩) by
    simp only [readItem, readSigned_complete h1 d45])
  have i2 := fun rest f => (show readItem (10 ^ width) width .month (m ++ 45 :: rest) f = .ok ({ f with m := x.m }, ⟨45 :: rest, false⟩) by
    simp only [readItem, readSigned_complete h2 d45])
  have i3 := fun rest f => (show readItem (10 ^ width) width .day (d ++ 84 :: rest) f = .ok ({ f with d := x.d }, ⟨84 :: rest, false⟩) by
    simp only [readItem, readSigned_complete h3 d84])
  have i4 := fun rest f => (show readItem (10 ^ width) width .hour (th ++ 58 :: rest) f = .ok ({ f with hour := hour }, ⟨58 :: rest, false⟩) by
    simp only [readItem, readUnsigned_complete h4 d58])
  have i5 := fun rest f => (show readItem (10 ^ width) width .minute (mi ++ 58 :: rest) f = .ok ({ f with min := minute }, ⟨58 :: rest, false⟩) by
    simp only [readItem, readUnsigned_complete h5 d58])
  simp only [List.cons_append, List.nil_append, fromStream]
  rw [readItems_step _ _ _ _ _ _ _ _ (i1 _ _), readItems_step _ _ _ _ _ _ _ _ (hc _ _ _),
    readItems_step _ _ _ _ _ _ _ _ (i2 _ _), readItems_step _ _ _ _ _ _ _ _ (hc _ _ _),
    readItems_step _ _ _ _ _ _ _ _ (i3 _ _), readItems_step _ _ _ _ _ _ _ _ (hc _ _ _),
    readItems_step _ _ _ _ _ _ _ _ (i4 _ _), readItems_step _ _ _ _ _ _ _ _ (hc _ _ _),
    readItems_step _ _ _ _ _ _ _ _ (i5 _ _), readItems_step _ _ _ _ _ _ _ _ (hc _ _ _),
    readItems_step _ _ _ _ _ _ _ _ h8, readItems_step _ _ _ _ _ _ _ _ (hc _ _ _)]
  simp only [readItems]
  rw [if_pos, instant_made cal hcal width x hour minute ticks' n hn]
  rw [Bool.and_eq_true, dateOk_valid, timeOk, decide_eq_true_iff]
  refine ⟨?_, ?_⟩
  · have := hcal.valid n
    rw [hn] at this
    exact this
  · simp only
    omega

/-- Single digits, a plus sign, and a fraction that is rounded: `2019-1-+2T3:4:5.1234567896Zulu`. -/
example : UtcText 9 ("2019-1-+2T3:4:5.1234567896Zulu".toUTF8.toList) ⟨2019, 1, 2⟩ 3 4 5123456790 := by
  refine ⟨[50, 48, 49, 57], [49], [43, 50], [51], [52], [53, 46, 49, 50, 51, 52, 53, 54, 55, 56, 57, 54], [117, 108, 117],
    by decide +kernel, .plain (n := 2019) ⟨numeral_iff.2 ⟨by decide, by decide⟩, by decide, by decide⟩,
    .plain (n := 1) ⟨numeral_iff.2 ⟨by decide, by decide⟩, by decide, by decide⟩,
    .plus (n := 2) ⟨numeral_iff.2 ⟨by decide, by decide⟩, by decide, by decide⟩,
    ⟨numeral_iff.2 ⟨by decide, by decide⟩, by decide, by decide⟩, ⟨numeral_iff.2 ⟨by decide, by decide⟩, by decide, by decide⟩, ?_⟩
  exact Seconds.rounded (a := [53]) (b := [49, 50, 51, 52, 53, 54, 55, 56, 57, 54]) (n := 51234567896)
    ⟨numeral_iff.2 ⟨by decide, by decide⟩, by decide, by decide⟩ (by decide) (by decide) (by decide)

end Feat.DateText
