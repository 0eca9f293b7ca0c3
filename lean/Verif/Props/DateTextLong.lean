import Verif.Props.DateText
/-
**C65** Texts with more decimals than the clock has.
-/
namespace Feat.DateText

theorem digitChar_mod (k n : Nat) (h : 1 ≤ k) : digitChar (n % 10 ^ k) = digitChar n := by
  unfold digitChar
  rw [Nat.mod_mod_of_dvd n (dvd_pow_self 10 (by omega))]

/-- The digits of a number, cut in two. -/
theorem digitsOf_split (j k n : Nat) : digitsOf (j + k) n = digitsOf j (n / 10 ^ k) ++ digitsOf k n := by
  induction k generalizing n with
  | zero => simp [digitsOf]
  | succ k ih =>
    rw [← Nat.add_assoc]
    simp only [digitsOf]
    rw [ih, Nat.div_div_eq_div_mul, List.append_assoc, Nat.pow_succ, Nat.mul_comm 10]

theorem digitsOf_two (n : Nat) : digitsOf 2 n = twoDigits (n % 100) := by
  simp only [digitsOf, twoDigits, digitChar, List.nil_append, List.cons_append]
  congr 2 <;> congr 1 <;> omega

theorem takeDecimal_full (ds rest : List UInt8) (h : ∀ c ∈ ds, isDigit c = true) :
    takeDecimal false ds.length (ds ++ rest) = (ds, ⟨rest, false⟩) := by
  induction ds with
  | nil => cases rest <;> rfl
  | cons c ds ih =>
    have hc := h c (by simp)
    have ih := ih (fun c hc => h c (by simp [hc]))
    simp [takeDecimal, hc, ih]

/-- The time with its fraction cut to `width` decimals. -/
def cut (width : Nat) (t : IsoTime) (z : IsoZone) : IsoTime :=
  { t with places := width, fraction := t.fraction / 10 ^ (t.places - width), zone := z }

theorem cut_fits (width : Nat) (t : IsoTime) (z : IsoZone) (hf : t.Fits) (hp : width ≤ t.places) (hz : z.Fits) : (cut width t z).Fits := by
  refine ⟨hf.year, hf.month, hf.day, hf.hour, hf.minute, hf.second, ?_, hz⟩
  have := hf.fraction
  show t.fraction / 10 ^ (t.places - width) < 10 ^ width
  rw [Nat.div_lt_iff_lt_mul (Nat.pow_pos (by decide)), ← Nat.pow_add]
  rwa [show width + (t.places - width) = t.places by omega]

/-- Reading the seconds stops after `width` decimals. -/
theorem item_second_long (width : Nat) (t : IsoTime) (rest : List UInt8) (f : Fields) (hw : 0 < width) (hp : width < t.places) (hf : t.Fits) :
    readItem (10 ^ width) width .second (t.seconds ++ rest) f =
      .ok ({ f with ticks := t.second * 10 ^ width + t.fraction / 10 ^ (t.places - width) },
        ⟨digitsOf (t.places - width) t.fraction ++ rest, false⟩) := by
  set k := t.places - width with hk
  set u := cut width t t.zone with hu
  have huf : u.Fits := cut_fits width t t.zone hf (by omega) hf.zone
  have e1 : t.seconds ++ rest = twoDigits t.second ++ (46 :: (digitsOf width (t.fraction / 10 ^ k) ++ (digitsOf k t.fraction ++ rest))) := by
    unfold IsoTime.seconds
    rw [if_neg (by omega)]
    have : t.places = width + k := by omega
    rw [this, digitsOf_split]
    simp
  have h1 : takeDecimal true (secondsWidth width) (t.seconds ++ rest) =
      (twoDigits t.second ++ 46 :: digitsOf width (t.fraction / 10 ^ k), ⟨digitsOf k t.fraction ++ rest, false⟩) := by
    have := takeDecimal_full (digitsOf width (t.fraction / 10 ^ k)) (digitsOf k t.fraction ++ rest) (fun c => digitsOf_isDigit)
    rw [digitsOf_length] at this
    rw [e1, show secondsWidth width = (width + 1) + 2 by simp only [secondsWidth, show ¬ width = 0 by omega, if_false]; omega, takeDecimal_two]
    simp [takeDecimal, this]
  have h2 : decimalTicks (10 ^ width) (twoDigits t.second ++ 46 :: digitsOf width (t.fraction / 10 ^ k))
      = .ok (t.second * 10 ^ width + t.fraction / 10 ^ k) := by
    have h := decimalTicks_seconds u width (Nat.le_refl _) huf
    rw [show width - u.places = 0 from Nat.sub_self _, Nat.pow_zero, Nat.mul_one] at h
    rcases Nat.eq_zero_or_pos width with h0 | h0
    · have e : u.seconds = twoDigits t.second := by
        unfold IsoTime.seconds
        rw [if_pos (show u.places = 0 from h0)]
        simp [u, cut]
      rw [e] at h
      have ne : ∀ n, digitChar n ≠ 46 := fun n => digitChar_ne n (by decide)
      rw [show t.second * 10 ^ width + t.fraction / 10 ^ k = u.second * 10 ^ width + u.fraction from rfl, ← h]
      simp [decimalTicks, twoDigits, ne, h0, digitsOf]
    · have e : u.seconds = twoDigits t.second ++ 46 :: digitsOf width (t.fraction / 10 ^ k) := by
        unfold IsoTime.seconds
        rw [if_neg (show ¬ u.places = 0 from by show ¬ width = 0; omega)]
        rfl
      rw [← e, h]
      rfl
  have h3 : ¬ (twoDigits t.second ++ 46 :: digitsOf width (t.fraction / 10 ^ k)).length < 1 := by simp [twoDigits]
  simp only [readItem, h1, h3, if_false, h2]

/-- Reading the extended format up to the seconds. -/
theorem read_before (width : Nat) (t : IsoTime) (sep : IsoSep) (hf : t.Fits) (zi : Item) (tail : List UInt8) :
    readItems (10 ^ width) width ([.year] ++ [.char 45] ++ [.month] ++ [.char 45] ++ [.day, sepItem sep, .hour] ++
      [.char 58] ++ [.minute] ++ [.char 58] ++ [.second, zi])
      ⟨fourDigits t.year ++ [45] ++ twoDigits t.month ++ [45] ++ twoDigits t.day ++ sep.text ++
        twoDigits t.hour ++ [58] ++ twoDigits t.minute ++ [58] ++ tail, false⟩ ⟨0, 0, 0, 0, 0, 0, 0⟩ =
    readItems (10 ^ width) width [.second, zi] ⟨tail, false⟩ ⟨t.year, t.month, t.day, t.hour, t.minute, 0, 0⟩ := by
  simp only [List.append_assoc, List.cons_append, List.nil_append]
  have hc := fun c rest f => item_char (10 ^ width) width c rest f
  simp only [List.cons_append, List.nil_append] at hc
  rw [readItems_step _ _ _ _ _ _ _ _ (item_year _ _ _ _ _ hf.year), readItems_step _ _ _ _ _ _ _ _ (hc _ _ _),
    readItems_step _ _ _ _ _ _ _ _ (item_month _ _ _ _ _ hf.month), readItems_step _ _ _ _ _ _ _ _ (hc _ _ _),
    readItems_step _ _ _ _ _ _ _ _ (item_day _ _ _ _ _ hf.day)]
  have hs := item_sep (10 ^ width) width sep t.hour
  rw [readItems_step _ _ _ _ _ _ _ _ (hs _ _),
    readItems_step _ _ _ _ _ _ _ _ (item_hour _ _ _ _ _ hf.hour), readItems_step _ _ _ _ _ _ _ _ (hc _ _ _),
    readItems_step _ _ _ _ _ _ _ _ (item_minute _ _ _ _ _ hf.minute), readItems_step _ _ _ _ _ _ _ _ (hc _ _ _)]

/-- The template that is chosen for a text of the extended format. -/
theorem fromIso_template (width : Nat) (t : IsoTime) (sep : IsoSep) (colon : Bool) :
    fromIso (10 ^ width) width (t.extended sep colon) =
      fromStream (10 ^ width) width ([.year] ++ [.char 45] ++ [.month] ++ [.char 45] ++ [.day, sepItem sep, .hour] ++
      [.char 58] ++ [.minute] ++ [.char 58] ++ [.second, zoneItem t.zone]) (t.extended sep false) := by
  have h1 : 45 ∈ t.extended sep colon := by simp [IsoTime.extended]
  have h2 : 58 ∈ t.extended sep colon := by simp [IsoTime.extended]
  have d84 : isDigit 84 = false := by decide
  have d90 : isDigit 90 = false := by decide
  have hz84 : 84 ∉ t.zone.text colon := by
    cases t.zone <;> cases colon <;> simp [IsoZone.text, not_mem_two d84]
  have h3 : 84 ∈ t.extended sep colon ↔ sepItem sep = .char 84 := by
    simp [IsoTime.extended, not_mem_two d84, not_mem_four d84, not_mem_seconds d84 (by decide), hz84, (sep_mem sep).1]
  have h4 : 90 ∈ t.extended sep colon ↔ t.zone = .utc := by
    simp [IsoTime.extended, not_mem_two d90, not_mem_four d90, not_mem_seconds d90 (by decide), (sep_mem sep).2.1, zone_mem_90]
  have e3 : (if 84 ∈ t.extended sep colon then Item.char 84 else .blank) = sepItem sep := by
    by_cases h : 84 ∈ t.extended sep colon
    · rw [if_pos h, h3.1 h]
    · rw [if_neg h]
      cases sep with
      | t => exact absurd (h3.2 rfl) h
      | blanks n => rfl
  have e4 : (if 90 ∈ t.extended sep colon then Item.char 90 else .zone) = zoneItem t.zone := by
    by_cases h : 90 ∈ t.extended sep colon
    · rw [if_pos h, h4.1 h]; rfl
    · rw [if_neg h]
      cases hz : t.zone with
      | utc => exact absurd (h4.2 hz) h
      | east => rfl
      | west => rfl
  unfold fromIso
  rw [if_pos h1, if_pos h2, e3, e4, dropZoneColon_extended]

/-- What is made of a text of the extended format with too many decimals. -/
theorem fromIso_long (width : Nat) (t : IsoTime) (sep : IsoSep) (colon : Bool) (hf : t.Fits) (hw : 0 < width) (hp : width < t.places) :
    fromIso (10 ^ width) width (t.extended sep colon) =
      match readItem (10 ^ width) width (zoneItem t.zone) (digitsOf (t.places - width) t.fraction ++ t.zone.text false)
        ⟨t.year, t.month, t.day, t.hour, t.minute, t.second * 10 ^ width + t.fraction / 10 ^ (t.places - width), 0⟩ with
      | .error e => .error e
      | .ok (f, _) => if dateOk f && timeOk (10 ^ width) f then instant (10 ^ width) f else .error .invalidArgument := by
  rw [fromIso_template, fromStream]
  have e : t.extended sep false = fourDigits t.year ++ [45] ++ twoDigits t.month ++ [45] ++ twoDigits t.day ++ sep.text ++
        twoDigits t.hour ++ [58] ++ twoDigits t.minute ++ [58] ++ (t.seconds ++ t.zone.text false) := by
    simp [IsoTime.extended]
  rw [e, read_before width t sep hf, readItems_step _ _ _ _ _ _ _ _ (item_second_long width t _ _ hw hp hf)]
  simp only [readItems]
  rw [if_neg (by decide)]
  cases readItem (10 ^ width) width (zoneItem t.zone) (digitsOf (t.places - width) t.fraction ++ t.zone.text false)
        ⟨t.year, t.month, t.day, t.hour, t.minute, t.second * 10 ^ width + t.fraction / 10 ^ (t.places - width), 0⟩ with
  | error e => rfl
  | ok p => rfl

theorem digitsOf_cons (k n : Nat) : digitsOf (k + 1) n = digitChar (n / 10 ^ k) :: digitsOf k n := by
  rw [Nat.add_comm, digitsOf_split]
  rfl

/-- **C65, more decimals than the clock has, in universal time**: the text is rejected, though it names a point in time. -/
theorem C65_excess_utc (width : Nat) (t : IsoTime) (sep : IsoSep) (colon : Bool) (hf : t.Fits) (hw : 0 < width) (hp : width < t.places)
    (hz : t.zone = .utc) : fromIso (10 ^ width) width (t.extended sep colon) = .error .invalidArgument := by
  rw [fromIso_long width t sep colon hf hw hp, hz]
  obtain ⟨k, hk⟩ : ∃ k, t.places - width = k + 1 := ⟨t.places - width - 1, by omega⟩
  rw [hk, digitsOf_cons]
  have := digitChar_ne (t.fraction / 10 ^ k) (show isDigit 90 = false by decide)
  simp only [zoneItem, readItem, readChar, List.cons_append]
  rw [if_neg this]

/-- **C65, one or three decimals more than the clock has, in another zone**: the text is rejected. -/
theorem C65_excess_odd (width : Nat) (t : IsoTime) (sep : IsoSep) (colon : Bool) (hf : t.Fits) (hw : 0 < width)
    (hp : t.places = width + 1 ∨ t.places = width + 3) (hz : t.zone ≠ .utc) :
    fromIso (10 ^ width) width (t.extended sep colon) = .error .invalidArgument := by
  rw [fromIso_long width t sep colon hf hw (by omega)]
  have hzi : zoneItem t.zone = .zone := by
    cases h : t.zone <;> first | exact absurd h hz | rfl
  obtain ⟨s, cs, hs, hsd⟩ : ∃ s cs, t.zone.text false = s :: cs ∧ isDigit s = false := by
    obtain ⟨s, cs, h1, h2, _⟩ := zone_stops t.zone false []
    exact ⟨s, cs, by simpa using h1, h2⟩
  rw [hzi, hs]
  rcases hp with hp | hp
  · rw [show t.places - width = 1 by omega]
    have : readSigned 2 2 (digitChar t.fraction :: s :: cs) = none := by
      simp [readSigned, digitChar_isDigit, readUnsigned, takeDigits, hsd]
    simp [digitsOf, readItem, readZone, this]
  · rw [show t.places - width = 1 + 2 by omega, digitsOf_cons, show (2 : Nat) = 1 + 1 from rfl, digitsOf_cons]
    have h1 : ∀ a b c : Nat, readSigned 2 2 (digitChar a :: digitChar b :: digitChar c :: s :: cs) =
        some ((digitsVal [digitChar a, digitChar b] : Int), ⟨digitChar c :: s :: cs, false⟩) := by
      intro a b c
      simp [readSigned, digitChar_isDigit, readUnsigned, takeDigits]
    have h2 : ∀ c : Nat, readUnsigned 2 2 (digitChar c :: s :: cs) = none := by
      intro c
      simp [digitChar_isDigit, readUnsigned, takeDigits, hsd]
    simp [digitsOf, readItem, readZone, h1, h2, digitChar_isDigit]

/-- **C65, two decimals more than the clock has, in another zone**: they are taken for the hours of the zone, and the zone is not
looked at. -/
theorem C65_excess_two (width : Nat) (t : IsoTime) (sep : IsoSep) (colon : Bool) (hf : t.Fits) (hw : 0 < width) (hp : t.places = width + 2)
    (hz : t.zone ≠ .utc) :
    fromIso (10 ^ width) width (t.extended sep colon) =
      fromIso (10 ^ width) width ((cut width t (.east (t.fraction % 100) 0)).extended sep colon) := by
  have hfc : (cut width t (.east (t.fraction % 100) 0)).Fits :=
    cut_fits width t _ hf (by omega) ⟨Nat.mod_lt _ (by decide), by decide⟩
  rw [fromIso_long width t sep colon hf hw (by omega), fromIso_extended width _ sep colon hfc (Nat.le_refl _)]
  have hzi : zoneItem t.zone = .zone := by
    cases h : t.zone <;> first | exact absurd h hz | rfl
  obtain ⟨s, cs, hs, hsd⟩ : ∃ s cs, t.zone.text false = s :: cs ∧ isDigit s = false := by
    obtain ⟨s, cs, h1, h2, _⟩ := zone_stops t.zone false []
    exact ⟨s, cs, by simpa using h1, h2⟩
  have h1 := readSigned_two (s :: cs) (le_refl 2) (show t.fraction % 100 < 100 from Nat.mod_lt _ (by decide))
  rw [hzi, hs, show t.places - width = 2 by omega, digitsOf_two]
  simp only [readItem, readZone, h1, hsd]
  have e : fieldsOf width (cut width t (.east (t.fraction % 100) 0)) =
      ⟨t.year, t.month, t.day, t.hour, t.minute, t.second * 10 ^ width + t.fraction / 10 ^ 2, 60 * ((t.fraction % 100 : Nat) : Int)⟩ := by
    simp [fieldsOf, cut, zoneRead, show t.places - width = 2 by omega]
  rw [e]
  rfl

/-- **C65, four or more decimals more than the clock has, in another zone**: the first four of them are taken for the hours and
minutes of the zone, and neither the others nor the zone are looked at. -/
theorem C65_excess_four (width : Nat) (t : IsoTime) (sep : IsoSep) (colon : Bool) (hf : t.Fits) (hw : 0 < width) (k : Nat)
    (hp : t.places = width + (4 + k)) (hz : t.zone ≠ .utc) :
    fromIso (10 ^ width) width (t.extended sep colon) =
      fromIso (10 ^ width) width
        ((cut width t (.east (t.fraction / 10 ^ (2 + k) % 100) (t.fraction / 10 ^ k % 100))).extended sep colon) := by
  have hfc : (cut width t (.east (t.fraction / 10 ^ (2 + k) % 100) (t.fraction / 10 ^ k % 100))).Fits :=
    cut_fits width t _ hf (by omega) ⟨Nat.mod_lt _ (by decide), Nat.mod_lt _ (by decide)⟩
  rw [fromIso_long width t sep colon hf hw (by omega), fromIso_extended width _ sep colon hfc (Nat.le_refl _)]
  have hzi : zoneItem t.zone = .zone := by
    cases h : t.zone <;> first | exact absurd h hz | rfl
  obtain ⟨rest, hr⟩ : ∃ rest, digitsOf k t.fraction ++ t.zone.text false = rest := ⟨_, rfl⟩
  have e1 : digitsOf (4 + k) t.fraction ++ t.zone.text false =
      twoDigits (t.fraction / 10 ^ (2 + k) % 100) ++ (twoDigits (t.fraction / 10 ^ k % 100) ++ rest) := by
    rw [show 4 + k = 2 + (2 + k) by omega, digitsOf_split 2 (2 + k), digitsOf_split 2 k, digitsOf_two, digitsOf_two, ← hr]
    simp
  have h1 := readSigned_two (twoDigits (t.fraction / 10 ^ k % 100) ++ rest) (le_refl 2)
    (show t.fraction / 10 ^ (2 + k) % 100 < 100 from Nat.mod_lt _ (by decide))
  have h2 := readUnsigned_two rest (le_refl 2) (show t.fraction / 10 ^ k % 100 < 100 from Nat.mod_lt _ (by decide))
  have hnn : ¬ ((t.fraction / 10 ^ (2 + k) % 100 : Nat) : Int) < 0 := by omega
  rw [hzi, show t.places - width = 4 + k by omega, e1]
  simp only [readItem, readZone, h1]
  have e : fieldsOf width (cut width t (.east (t.fraction / 10 ^ (2 + k) % 100) (t.fraction / 10 ^ k % 100))) =
      ⟨t.year, t.month, t.day, t.hour, t.minute, t.second * 10 ^ width + t.fraction / 10 ^ (4 + k),
        60 * ((t.fraction / 10 ^ (2 + k) % 100 : Nat) : Int) + ((t.fraction / 10 ^ k % 100 : Nat) : Int)⟩ := by
    simp [fieldsOf, cut, zoneRead, show t.places - width = 4 + k by omega]
  rw [e]
  simp only [twoDigits, List.cons_append, List.nil_append] at h2 ⊢
  simp only [digitChar_isDigit, if_true, h2, if_neg hnn, Bool.false_eq_true, if_false]

/-- One nanosecond clock, eleven decimals: `2019-11-26T13:05:09.12345678912+01:00` is read as if its zone were `+12:00`. -/
example : fromIso (10 ^ 9) 9 ((⟨2019, 11, 26, 13, 5, 9, 11, 12345678912, .east 1 0⟩ : IsoTime).extended .t true) =
    fromIso (10 ^ 9) 9 ((⟨2019, 11, 26, 13, 5, 9, 9, 123456789, .east 12 0⟩ : IsoTime).extended .t true) :=
  C65_excess_two 9 ⟨2019, 11, 26, 13, 5, 9, 11, 12345678912, .east 1 0⟩ .t true
    ⟨by decide, by decide, by decide, by decide, by decide, by decide, by decide, ⟨by decide, by decide⟩⟩ (by decide) rfl (by simp)

end Feat.DateText
