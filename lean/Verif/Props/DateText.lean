import Verif.Model.DateText
import Verif.Spec.DateText
import Verif.Proofs.Calendar
import Verif.Props.DateTime
import Verif.Props.Text
import Mathlib.Data.List.Induction
import Mathlib.Tactic.Linarith
import Mathlib.Tactic.Ring
import Mathlib.Tactic.SplitIfs
/-
C65: date-time texts.
-/
namespace Feat
namespace DateText

/-! ### Digits -/

theorem digitChar_toNat (n : Nat) : (digitChar n).toNat = 48 + n % 10 := by
  unfold digitChar
  rw [UInt8.toNat_ofNat']
  omega

theorem digitChar_isDigit (n : Nat) : isDigit (digitChar n) = true := by
  have h := digitChar_toNat n
  simp only [isDigit, UInt8.le_iff_toNat_le, h]
  simp
  omega

theorem digitChar_ne (n : Nat) {c : UInt8} (h : isDigit c = false) : digitChar n ≠ c := by
  intro e
  rw [← e, digitChar_isDigit] at h
  cases h

theorem digitsVal_append (a : List UInt8) (c : UInt8) : digitsVal (a ++ [c]) = 10 * digitsVal a + (c.toNat - 48) := by
  simp [digitsVal]

theorem digitsVal_two {n : Nat} (h : n < 100) : digitsVal (twoDigits n) = n := by
  simp [digitsVal, twoDigits, digitChar_toNat]
  omega

theorem digitsVal_four {n : Nat} (h : n < 10000) : digitsVal (fourDigits n) = n := by
  simp [digitsVal, fourDigits, digitChar_toNat]
  omega

theorem digitsVal_of {k n : Nat} (h : n < 10 ^ k) : digitsVal (digitsOf k n) = n := by
  induction k generalizing n with
  | zero => simp at h; subst h; rfl
  | succ k ih =>
    rw [digitsOf, digitsVal_append, ih (by rw [Nat.pow_succ] at h; omega), digitChar_toNat]
    omega

theorem digitsOf_length (k n : Nat) : (digitsOf k n).length = k := by
  induction k generalizing n with
  | zero => rfl
  | succ k ih => simp [digitsOf, ih]

theorem digitsOf_isDigit {k n : Nat} {c : UInt8} (h : c ∈ digitsOf k n) : isDigit c = true := by
  induction k generalizing n with
  | zero => simp [digitsOf] at h
  | succ k ih =>
    simp only [digitsOf, List.mem_append, List.mem_singleton] at h
    rcases h with h | h
    · exact ih h
    · rw [h]; exact digitChar_isDigit n

theorem twoDigits_isDigit {n : Nat} {c : UInt8} (h : c ∈ twoDigits n) : isDigit c = true := by
  simp only [twoDigits, List.mem_cons, List.not_mem_nil, or_false] at h
  rcases h with h | h <;> (rw [h]; exact digitChar_isDigit _)

theorem fourDigits_isDigit {n : Nat} {c : UInt8} (h : c ∈ fourDigits n) : isDigit c = true := by
  simp only [fourDigits, List.mem_cons, List.not_mem_nil, or_false] at h
  rcases h with h | h | h | h <;> (rw [h]; exact digitChar_isDigit _)

theorem not_mem_two {c : UInt8} (h : isDigit c = false) (n : Nat) : c ∉ twoDigits n := by
  intro hc; rw [twoDigits_isDigit hc] at h; cases h

theorem not_mem_four {c : UInt8} (h : isDigit c = false) (n : Nat) : c ∉ fourDigits n := by
  intro hc; rw [fourDigits_isDigit hc] at h; cases h

theorem not_mem_digits {c : UInt8} (h : isDigit c = false) (k n : Nat) : c ∉ digitsOf k n := by
  intro hc; rw [digitsOf_isDigit hc] at h; cases h

/-! ### Reading one piece -/

theorem takeDigits_exact (ds rest : List UInt8) (h : ∀ c ∈ ds, isDigit c = true) :
    takeDigits ds.length (ds ++ rest) = (ds, ⟨rest, false⟩) := by
  induction ds with
  | nil => cases rest <;> rfl
  | cons c ds ih =>
    have hc := h c (by simp)
    have ih := ih (fun c hc => h c (by simp [hc]))
    simp [takeDigits, hc, ih]

theorem readUnsigned_exact (m : Nat) (ds rest : List UInt8) (h : ∀ c ∈ ds, isDigit c = true) (hm : m ≤ ds.length) :
    readUnsigned m ds.length (ds ++ rest) = some ((digitsVal ds : Int), ⟨rest, false⟩) := by
  simp only [readUnsigned, takeDigits_exact ds rest h]
  rw [if_neg (by omega)]

theorem readUnsigned_two {m n : Nat} (rest : List UInt8) (hm : m ≤ 2) (hn : n < 100) :
    readUnsigned m 2 (twoDigits n ++ rest) = some ((n : Int), ⟨rest, false⟩) := by
  have := readUnsigned_exact m (twoDigits n) rest (fun c => twoDigits_isDigit) hm
  rw [digitsVal_two hn] at this
  exact this

theorem readSigned_two {m n : Nat} (rest : List UInt8) (hm : m ≤ 2) (hn : n < 100) :
    readSigned m 2 (twoDigits n ++ rest) = some ((n : Int), ⟨rest, false⟩) := by
  have := readUnsigned_two rest hm hn
  simp only [twoDigits, List.cons_append] at this ⊢
  simp only [readSigned, digitChar_isDigit]
  exact this

theorem readSigned_four {n : Nat} (rest : List UInt8) (hn : n < 10000) :
    readSigned 1 4 (fourDigits n ++ rest) = some ((n : Int), ⟨rest, false⟩) := by
  have := readUnsigned_exact 1 (fourDigits n) rest (fun c => fourDigits_isDigit) (by simp [fourDigits])
  rw [digitsVal_four hn] at this
  simp only [fourDigits, List.cons_append] at this ⊢
  simp only [readSigned, digitChar_isDigit]
  exact this

/-- Seconds are followed by something that is neither a digit nor a decimal point. -/
def Stops (rest : List UInt8) : Prop := ∃ c cs, rest = c :: cs ∧ isDigit c = false ∧ c ≠ 46

theorem takeDecimal_digits (ds rest : List UInt8) (M : Nat) (h : ∀ c ∈ ds, isDigit c = true) (hM : ds.length ≤ M)
    (hr : Stops rest) : takeDecimal false M (ds ++ rest) = (ds, ⟨rest, false⟩) := by
  induction ds generalizing M with
  | nil =>
    obtain ⟨c, cs, rfl, h1, h2⟩ := hr
    cases M with
    | zero => rfl
    | succ M => simp [takeDecimal, h1]
  | cons c ds ih =>
    cases M with
    | zero => simp at hM
    | succ M =>
      have hc := h c (by simp)
      have ih := ih M (fun c hc => h c (by simp [hc])) (by simp at hM; omega)
      simp [takeDecimal, hc, ih]

theorem takeDecimal_two (n M : Nat) (rest : List UInt8) :
    takeDecimal true (M + 2) (twoDigits n ++ rest) =
      (twoDigits n ++ (takeDecimal true M rest).1, (takeDecimal true M rest).2) := by
  have h : ∀ n, digitChar n ≠ 46 := fun n => digitChar_ne n (by decide)
  simp [twoDigits, takeDecimal, h, digitChar_isDigit]

theorem takeDecimal_seconds (t : IsoTime) (width : Nat) (rest : List UInt8) (hp : t.places ≤ width) (hr : Stops rest) :
    takeDecimal true (secondsWidth width) (t.seconds ++ rest) = (t.seconds, ⟨rest, false⟩) := by
  by_cases h0 : width = 0
  · have hp0 : t.places = 0 := by omega
    have := takeDecimal_two t.second 0 rest
    have h1 : takeDecimal true 0 rest = ([], ⟨rest, false⟩) := by cases rest <;> rfl
    simp only [secondsWidth, h0, if_true, IsoTime.seconds, hp0, List.append_nil]
    simpa [h1] using this
  have e : secondsWidth width = (width + 1) + 2 := by simp only [secondsWidth, h0, if_false]; omega
  rw [e]
  unfold IsoTime.seconds
  rw [List.append_assoc, takeDecimal_two]
  split
  · obtain ⟨c, cs, rfl, h1, h2⟩ := hr
    simp [takeDecimal, h1, h2]
  · have := takeDecimal_digits (digitsOf t.places t.fraction) rest width (fun c => digitsOf_isDigit)
      (by rw [digitsOf_length]; exact hp) hr
    simp [takeDecimal, this]

theorem roundDiv_exact (n d : Nat) (hd : 0 < d) : roundDiv (n * d) d = n := by
  have h1 : n * d / d = n := Nat.mul_div_cancel n hd
  have h2 : n * d % d = 0 := Nat.mul_mod_left n d
  simp [roundDiv, h1, h2, hd]

theorem digitsVal_append_list (a b : List UInt8) : digitsVal (a ++ b) = digitsVal a * 10 ^ b.length + digitsVal b := by
  induction b using List.reverseRecOn with
  | nil => simp [digitsVal]
  | append_singleton b c ih =>
    rw [← List.append_assoc, digitsVal_append, ih, digitsVal_append]
    simp [Nat.pow_succ]
    ring

theorem decimalTicks_seconds (t : IsoTime) (width : Nat) (hp : t.places ≤ width) (hf : t.Fits) :
    decimalTicks (10 ^ width) t.seconds = .ok (t.second * 10 ^ width + t.fraction * 10 ^ (width - t.places)) := by
  have ne : ∀ n, digitChar n ≠ 46 := fun n => digitChar_ne n (by decide)
  have e1 : t.seconds.takeWhile (· ≠ 46) = twoDigits t.second := by
    unfold IsoTime.seconds
    split <;> simp [twoDigits, ne]
  have e2 : (t.seconds.dropWhile (· ≠ 46)).drop 1 = digitsOf t.places t.fraction := by
    unfold IsoTime.seconds
    split
    · rename_i h; simp [twoDigits, ne, h, digitsOf]
    · simp [twoDigits, ne]
  unfold decimalTicks
  simp only [e1, e2]
  rw [if_neg (by simp [twoDigits])]
  congr 1
  rw [digitsVal_append_list, digitsVal_two hf.second, digitsVal_of hf.fraction, digitsOf_length]
  have e : (10 : Nat) ^ width = 10 ^ (width - t.places) * 10 ^ t.places := by
    rw [← Nat.pow_add]; congr 1; omega
  have : (t.second * 10 ^ t.places + t.fraction) * 10 ^ width
      = (t.second * 10 ^ width + t.fraction * 10 ^ (width - t.places)) * 10 ^ t.places := by
    rw [e]; ring
  rw [this, roundDiv_exact _ _ (Nat.pow_pos (by decide))]

theorem not_mem_seconds {c : UInt8} (h : isDigit c = false) (h' : c ≠ 46) (t : IsoTime) : c ∉ t.seconds := by
  unfold IsoTime.seconds
  intro hc
  simp only [List.mem_append] at hc
  rcases hc with hc | hc
  · exact not_mem_two h _ hc
  · split at hc
    · simp at hc
    · simp only [List.mem_cons] at hc
      rcases hc with hc | hc
      · exact h' hc
      · exact not_mem_digits h _ _ hc

/-- What `%z` makes of a zone: the minutes are counted to the west only if the hours are not zero. -/
def zoneRead : IsoZone → Int
  | .utc => 0
  | .east h m => 60 * h + m
  | .west h m => if h = 0 then m else -(60 * h + m)

theorem readZone_digits (h m : Nat) (hh : h < 100) (hm : m < 100) (sign : UInt8) (hs : sign = 43 ∨ sign = 45) :
    readZone (sign :: (twoDigits h ++ twoDigits m)) =
      some ((if sign = 43 then (60 * h + m : Int) else if h = 0 then m else -(60 * h + m)), ⟨[], false⟩) := by
  have e1 := readUnsigned_two (twoDigits m) (le_refl 2) hh
  have e2 := readUnsigned_two [] (le_refl 2) hm
  rw [List.append_nil] at e2
  unfold readZone
  have : readSigned 2 2 (sign :: (twoDigits h ++ twoDigits m)) =
      some ((if sign = 43 then (h : Int) else -h), ⟨twoDigits m, false⟩) := by
    rcases hs with rfl | rfl
    · have : isDigit 43 = false := by decide
      simp [readSigned, this, e1]
    · have : isDigit 45 = false := by decide
      simp [readSigned, this, e1]
  rw [this]
  simp only [twoDigits] at e2 ⊢
  simp only [digitChar_isDigit, if_true, e2]
  rcases hs with rfl | rfl
  · simp
  · simp only [show (45 : UInt8) ≠ 43 by decide, if_false]
    split_ifs <;> simp <;> omega

/-! ### The whole text -/

theorem readItems_step (q width : Nat) (it : Item) (its : List Item) (s rest : List UInt8) (f f' : Fields)
    (h : readItem q width it s f = .ok (f', ⟨rest, false⟩)) :
    readItems q width (it :: its) ⟨s, false⟩ f = readItems q width its ⟨rest, false⟩ f' := by
  simp [readItems, h]

theorem item_year (q width n : Nat) (rest : List UInt8) (f : Fields) (h : n < 10000) :
    readItem q width .year (fourDigits n ++ rest) f = .ok ({ f with y := n }, ⟨rest, false⟩) := by
  simp [readItem, readSigned_four rest h]

theorem item_month (q width n : Nat) (rest : List UInt8) (f : Fields) (h : n < 100) :
    readItem q width .month (twoDigits n ++ rest) f = .ok ({ f with m := n }, ⟨rest, false⟩) := by
  simp [readItem, readSigned_two rest (by decide : 1 ≤ 2) h]

theorem item_day (q width n : Nat) (rest : List UInt8) (f : Fields) (h : n < 100) :
    readItem q width .day (twoDigits n ++ rest) f = .ok ({ f with d := n }, ⟨rest, false⟩) := by
  simp [readItem, readSigned_two rest (by decide : 1 ≤ 2) h]

theorem item_hour (q width n : Nat) (rest : List UInt8) (f : Fields) (h : n < 100) :
    readItem q width .hour (twoDigits n ++ rest) f = .ok ({ f with hour := n }, ⟨rest, false⟩) := by
  simp [readItem, readUnsigned_two rest (by decide : 1 ≤ 2) h]

theorem item_minute (q width n : Nat) (rest : List UInt8) (f : Fields) (h : n < 100) :
    readItem q width .minute (twoDigits n ++ rest) f = .ok ({ f with min := n }, ⟨rest, false⟩) := by
  simp [readItem, readUnsigned_two rest (by decide : 1 ≤ 2) h]

theorem item_char (q width : Nat) (c : UInt8) (rest : List UInt8) (f : Fields) :
    readItem q width (.char c) ([c] ++ rest) f = .ok (f, ⟨rest, false⟩) := by
  simp [readItem, readChar]

theorem item_second (width : Nat) (t : IsoTime) (rest : List UInt8) (f : Fields) (hp : t.places ≤ width) (hf : t.Fits)
    (hr : Stops rest) :
    readItem (10 ^ width) width .second (t.seconds ++ rest) f =
      .ok ({ f with ticks := t.second * 10 ^ width + t.fraction * 10 ^ (width - t.places) }, ⟨rest, false⟩) := by
  have h1 := takeDecimal_seconds t width rest hp hr
  have h2 := decimalTicks_seconds t width hp hf
  have h3 : ¬ t.seconds.length < 1 := by simp [IsoTime.seconds, twoDigits]
  simp only [readItem, h1, h3, if_false, h2]

def sepItem : IsoSep → Item
  | .t => .char 84
  | .blanks _ => .blank

def zoneItem : IsoZone → Item
  | .utc => .char 90
  | _ => .zone

theorem item_sep (q width : Nat) (sep : IsoSep) (n : Nat) (rest : List UInt8) (f : Fields) :
    readItem q width (sepItem sep) (sep.text ++ (twoDigits n ++ rest)) f =
      .ok (f, ⟨twoDigits n ++ rest, false⟩) := by
  cases sep with
  | t => exact item_char q width 84 _ f
  | blanks k =>
    have hd : isSpace (digitChar (n / 10)) = false := by
      have := digitChar_isDigit (n / 10)
      generalize digitChar (n / 10) = c at this
      revert this
      have all : ∀ n < 256, isDigit (UInt8.ofNat n) = true → isSpace (UInt8.ofNat n) = false := by decide +kernel
      have := all c.toNat c.toNat_lt
      rwa [UInt8.ofNat_toNat] at this
    have : ∀ k, (List.replicate k (32 : UInt8) ++ (twoDigits n ++ rest)).dropWhile isSpace = twoDigits n ++ rest := by
      intro k
      induction k with
      | zero => simp [twoDigits, hd]
      | succ k ih =>
        have : isSpace 32 = true := by decide
        rw [List.replicate_succ, List.cons_append, List.dropWhile_cons, this]
        exact ih
    simp only [sepItem, readItem, readBlank, IsoSep.text, this]
    simp [twoDigits]

theorem item_zone (q width : Nat) (z : IsoZone) (junk : List UInt8) (f : Fields) (hz : z.Fits) (h0 : f.offset = 0)
    (hj : junk = [] ∨ z = .utc) :
    ∃ s', readItem q width (zoneItem z) (z.text false ++ junk) f =
      .ok ({ f with offset := zoneRead z }, s') := by
  by_cases hu : z = .utc
  · subst hu
    refine ⟨⟨junk, false⟩, ?_⟩
    have := item_char q width 90 junk f
    simp only [zoneItem, IsoZone.text, this, zoneRead, ← h0]
  obtain rfl : junk = [] := hj.resolve_right hu
  rw [List.append_nil]
  cases z with
  | utc => exact absurd rfl hu
  | east h m =>
    have := readZone_digits h m hz.1 hz.2 43 (.inl rfl)
    exact ⟨⟨[], false⟩, by simp [zoneItem, readItem, IsoZone.text, this, zoneRead]⟩
  | west h m =>
    have := readZone_digits h m hz.1 hz.2 45 (.inr rfl)
    exact ⟨⟨[], false⟩, by simp [zoneItem, readItem, IsoZone.text, this, zoneRead]⟩

theorem zone_stops (z : IsoZone) (colon : Bool) (junk : List UInt8) : Stops (z.text colon ++ junk) := by
  cases z
  · exact ⟨90, junk, rfl, by decide, by decide⟩
  · exact ⟨43, _, rfl, by decide, by decide⟩
  · exact ⟨45, _, rfl, by decide, by decide⟩

/-- The fields that are read from a text. -/
def fieldsOf (width : Nat) (t : IsoTime) : Fields :=
  ⟨t.year, t.month, t.day, t.hour, t.minute, t.second * 10 ^ width + t.fraction * 10 ^ (width - t.places), zoneRead t.zone⟩

theorem read_extended (width : Nat) (t : IsoTime) (sep : IsoSep) (hf : t.Fits) (hp : t.places ≤ width)
    (junk : List UInt8) (hj : junk = [] ∨ t.zone = .utc) :
    readItems (10 ^ width) width ([.year] ++ [.char 45] ++ [.month] ++ [.char 45] ++ [.day, sepItem sep, .hour] ++
      [.char 58] ++ [.minute] ++ [.char 58] ++ [.second, zoneItem t.zone]) ⟨t.extended sep false ++ junk, false⟩
      ⟨0, 0, 0, 0, 0, 0, 0⟩ = .ok (fieldsOf width t) := by
  unfold IsoTime.extended
  simp only [List.append_assoc, List.cons_append, List.nil_append]
  have hc := fun c rest f => item_char (10 ^ width) width c rest f
  simp only [List.cons_append, List.nil_append] at hc
  rw [readItems_step _ _ _ _ _ _ _ _ (item_year _ _ _ _ _ hf.year), readItems_step _ _ _ _ _ _ _ _ (hc _ _ _),
    readItems_step _ _ _ _ _ _ _ _ (item_month _ _ _ _ _ hf.month), readItems_step _ _ _ _ _ _ _ _ (hc _ _ _),
    readItems_step _ _ _ _ _ _ _ _ (item_day _ _ _ _ _ hf.day)]
  have hs := item_sep (10 ^ width) width sep t.hour
  rw [readItems_step _ _ _ _ _ _ _ _ (hs _ _),
    readItems_step _ _ _ _ _ _ _ _ (item_hour _ _ _ _ _ hf.hour), readItems_step _ _ _ _ _ _ _ _ (hc _ _ _),
    readItems_step _ _ _ _ _ _ _ _ (item_minute _ _ _ _ _ hf.minute), readItems_step _ _ _ _ _ _ _ _ (hc _ _ _),
    readItems_step _ _ _ _ _ _ _ _ (item_second width t _ _ hp hf (zone_stops _ _ _))]
  obtain ⟨s', h⟩ := item_zone (10 ^ width) width t.zone junk
    ⟨t.year, t.month, t.day, t.hour, t.minute, t.second * 10 ^ width + t.fraction * 10 ^ (width - t.places), 0⟩ hf.zone rfl hj
  simp only [readItems]
  rw [if_neg (by decide), h]
  rfl

theorem read_basic (width : Nat) (t : IsoTime) (sep : IsoSep) (hf : t.Fits) (hp : t.places ≤ width) :
    readItems (10 ^ width) width ([.year] ++ [] ++ [.month] ++ [] ++ [.day, sepItem sep, .hour] ++
      [] ++ [.minute] ++ [] ++ [.second, zoneItem t.zone]) ⟨t.basic sep, false⟩
      ⟨0, 0, 0, 0, 0, 0, 0⟩ = .ok (fieldsOf width t) := by
  rw [← List.append_nil (t.basic sep)]
  unfold IsoTime.basic
  simp only [List.append_assoc, List.cons_append, List.nil_append]
  rw [readItems_step _ _ _ _ _ _ _ _ (item_year _ _ _ _ _ hf.year),
    readItems_step _ _ _ _ _ _ _ _ (item_month _ _ _ _ _ hf.month),
    readItems_step _ _ _ _ _ _ _ _ (item_day _ _ _ _ _ hf.day)]
  have hs := item_sep (10 ^ width) width sep t.hour
  rw [readItems_step _ _ _ _ _ _ _ _ (hs _ _),
    readItems_step _ _ _ _ _ _ _ _ (item_hour _ _ _ _ _ hf.hour),
    readItems_step _ _ _ _ _ _ _ _ (item_minute _ _ _ _ _ hf.minute),
    readItems_step _ _ _ _ _ _ _ _ (item_second width t _ _ hp hf (zone_stops _ _ _))]
  obtain ⟨s', h⟩ := item_zone (10 ^ width) width t.zone []
    ⟨t.year, t.month, t.day, t.hour, t.minute, t.second * 10 ^ width + t.fraction * 10 ^ (width - t.places), 0⟩ hf.zone rfl (.inl rfl)
  simp only [readItems]
  rw [if_neg (by decide), h]
  rfl

/-! ### The template -/

theorem lastIndex_spec (a : UInt8) (pre post : List UInt8) (h : a ∉ post) :
    lastIndex a (pre ++ a :: post) = some pre.length := by
  have hf : (pre ++ a :: post).reverse.findIdx (· = a) = post.length := by
    simp only [List.reverse_append, List.reverse_cons, List.append_assoc]
    rw [List.findIdx_append]
    have : post.reverse.findIdx (· = a) = post.reverse.length := by
      rw [List.findIdx_eq_length]
      intro x hx
      simp at hx ⊢
      rintro rfl
      exact h hx
    rw [this]
    simp [List.findIdx_cons]
  simp only [lastIndex, hf]
  simp

theorem lastIndex_none (a : UInt8) (s : List UInt8) (h : a ∉ s) : lastIndex a s = none := by
  simp [lastIndex, h]

theorem zone_mem_90 (z : IsoZone) (colon : Bool) : 90 ∈ z.text colon ↔ z = .utc := by
  have h2 := fun n => not_mem_two (show isDigit 90 = false by decide) n
  cases z <;> cases colon <;> simp [IsoZone.text, h2]

theorem sep_mem (sep : IsoSep) : (84 ∈ sep.text ↔ sepItem sep = .char 84) ∧ 90 ∉ sep.text ∧ 45 ∉ sep.text ∧ 58 ∉ sep.text := by
  cases sep <;> simp [IsoSep.text, sepItem, List.mem_replicate]

theorem dropZoneColon_extended (t : IsoTime) (sep : IsoSep) (colon : Bool) :
    dropZoneColon (t.extended sep colon) = .ok (t.extended sep false) := by
  have h2 := fun n => not_mem_two (show isDigit 90 = false by decide) n
  have h3 := fun n => not_mem_two (show isDigit 58 = false by decide) n
  have h4 := not_mem_four (show isDigit 90 = false by decide) t.year
  have h5 := not_mem_seconds (show isDigit 90 = false by decide) (by decide) t
  have h6 := not_mem_seconds (show isDigit 58 = false by decide) (by decide) t
  have hm : 90 ∈ t.extended sep colon ↔ t.zone = .utc := by
    simp [IsoTime.extended, h2, h4, h5, (sep_mem sep).2.1, zone_mem_90]
  unfold dropZoneColon
  by_cases hu : t.zone = .utc
  · rw [if_pos (hm.2 hu)]
    simp [IsoTime.extended, hu, IsoZone.text]
  · rw [if_neg (fun h => hu (hm.1 h))]
    have key : ∀ sign h m, (sign : UInt8) ≠ 58 → (∀ c, t.zone.text c = [sign] ++ twoDigits h ++ (if c then [58] else []) ++ twoDigits m) →
        (match lastIndex 58 (t.extended sep colon) with
          | some i => if i + 3 = (t.extended sep colon).length then Except.ok ((t.extended sep colon).eraseIdx i)
              else .ok (t.extended sep colon)
          | none => if (t.extended sep colon).length = 2 then .error Err.outOfRange else .ok (t.extended sep colon)) =
        .ok (t.extended sep false) := by
      intro sign h m hs hz
      cases colon with
      | true =>
        have e : t.extended sep true = (fourDigits t.year ++ [45] ++ twoDigits t.month ++ [45] ++ twoDigits t.day ++ sep.text ++
          twoDigits t.hour ++ [58] ++ twoDigits t.minute ++ [58] ++ t.seconds ++ [sign] ++ twoDigits h) ++ 58 :: twoDigits m := by
          simp [IsoTime.extended, hz]
        rw [e, lastIndex_spec _ _ _ (h3 m)]
        simp only
        rw [if_pos (by simp [twoDigits]; omega), List.eraseIdx_append_of_length_le (by simp)]
        simp [IsoTime.extended, hz]
      | false =>
        have e : t.extended sep false = (fourDigits t.year ++ [45] ++ twoDigits t.month ++ [45] ++ twoDigits t.day ++ sep.text ++
          twoDigits t.hour ++ [58] ++ twoDigits t.minute) ++ 58 :: (t.seconds ++ [sign] ++ twoDigits h ++ twoDigits m) := by
          simp [IsoTime.extended, hz]
        have hn : 58 ∉ t.seconds ++ [sign] ++ twoDigits h ++ twoDigits m := by
          simp [h3, h6, Ne.symm hs]
        rw [e, lastIndex_spec _ _ _ hn]
        simp only
        rw [if_neg (by simp [twoDigits]; omega)]
    cases hz : t.zone with
    | utc => exact absurd hz hu
    | east h m => exact key 43 h m (by decide) (fun c => by rw [hz]; rfl)
    | west h m => exact key 45 h m (by decide) (fun c => by rw [hz]; rfl)

theorem fromIso_extended (width : Nat) (t : IsoTime) (sep : IsoSep) (colon : Bool) (hf : t.Fits) (hp : t.places ≤ width) :
    fromIso (10 ^ width) width (t.extended sep colon) =
      if dateOk (fieldsOf width t) && timeOk (10 ^ width) (fieldsOf width t) then instant (10 ^ width) (fieldsOf width t)
      else .error .invalidArgument := by
  have h1 : 45 ∈ t.extended sep colon := by simp [IsoTime.extended]
  have h2 : 58 ∈ t.extended sep colon := by simp [IsoTime.extended]
  have d84 : isDigit 84 = false := by decide
  have d90 : isDigit 90 = false := by decide
  have hz84 : 84 ∉ t.zone.text colon := by
    cases t.zone <;> cases colon <;> simp [IsoZone.text, not_mem_two d84]
  have h3 : 84 ∈ t.extended sep colon ↔ sepItem sep = .char 84 := by
    simp [IsoTime.extended, not_mem_two d84, not_mem_four d84, not_mem_seconds d84 (by decide), hz84, (sep_mem sep).1]
  have h4 : 90 ∈ t.extended sep colon ↔ t.zone = .utc := by
    simp [IsoTime.extended, not_mem_two d90, not_mem_four d90, not_mem_seconds d90 (by decide), (sep_mem sep).2.1, zone_mem_90]
  have e3 : (if 84 ∈ t.extended sep colon then Item.char 84 else .blank) = sepItem sep := by
    by_cases h : 84 ∈ t.extended sep colon
    · rw [if_pos h, h3.1 h]
    · rw [if_neg h]
      cases sep with
      | t => exact absurd (h3.2 rfl) h
      | blanks n => rfl
  have e4 : (if 90 ∈ t.extended sep colon then Item.char 90 else .zone) = zoneItem t.zone := by
    by_cases h : 90 ∈ t.extended sep colon
    · rw [if_pos h, h4.1 h]; rfl
    · rw [if_neg h]
      cases hz : t.zone with
      | utc => exact absurd (h4.2 hz) h
      | east => rfl
      | west => rfl
  unfold fromIso
  rw [if_pos h1, if_pos h2, e3, e4, dropZoneColon_extended]
  simp only [fromStream]
  have := read_extended width t sep hf hp [] (.inl rfl)
  rw [List.append_nil] at this
  rw [this]

theorem fromIso_basic (width : Nat) (t : IsoTime) (sep : IsoSep) (hf : t.Fits) (hp : t.places ≤ width)
    (hw : ∀ h m, t.zone ≠ .west h m) :
    fromIso (10 ^ width) width (t.basic sep) =
      if dateOk (fieldsOf width t) && timeOk (10 ^ width) (fieldsOf width t) then instant (10 ^ width) (fieldsOf width t)
      else .error .invalidArgument := by
  have d45 : isDigit 45 = false := by decide
  have d58 : isDigit 58 = false := by decide
  have d84 : isDigit 84 = false := by decide
  have d90 : isDigit 90 = false := by decide
  have hz84 : 84 ∉ t.zone.text false := by
    cases t.zone <;> simp [IsoZone.text, not_mem_two d84]
  have hz58 : 58 ∉ t.zone.text false := by
    cases t.zone <;> simp [IsoZone.text, not_mem_two d58]
  have hz45 : 45 ∉ t.zone.text false := by
    cases hz : t.zone with
    | utc => simp [IsoZone.text]
    | east h m => simp [IsoZone.text, not_mem_two d45]
    | west h m => exact absurd hz (hw h m)
  have h1 : 45 ∉ t.basic sep := by
    simp [IsoTime.basic, not_mem_two d45, not_mem_four d45, not_mem_seconds d45 (by decide), hz45, (sep_mem sep).2.2.1]
  have h2 : 58 ∉ t.basic sep := by
    simp [IsoTime.basic, not_mem_two d58, not_mem_four d58, not_mem_seconds d58 (by decide), hz58, (sep_mem sep).2.2.2]
  have h3 : 84 ∈ t.basic sep ↔ sepItem sep = .char 84 := by
    simp [IsoTime.basic, not_mem_two d84, not_mem_four d84, not_mem_seconds d84 (by decide), hz84, (sep_mem sep).1]
  have h4 : 90 ∈ t.basic sep ↔ t.zone = .utc := by
    simp [IsoTime.basic, not_mem_two d90, not_mem_four d90, not_mem_seconds d90 (by decide), (sep_mem sep).2.1, zone_mem_90]
  have e3 : (if 84 ∈ t.basic sep then Item.char 84 else .blank) = sepItem sep := by
    by_cases h : 84 ∈ t.basic sep
    · rw [if_pos h, h3.1 h]
    · rw [if_neg h]
      cases sep with
      | t => exact absurd (h3.2 rfl) h
      | blanks n => rfl
  have e4 : (if 90 ∈ t.basic sep then Item.char 90 else .zone) = zoneItem t.zone := by
    by_cases h : 90 ∈ t.basic sep
    · rw [if_pos h, h4.1 h]; rfl
    · rw [if_neg h]
      cases hz : t.zone with
      | utc => exact absurd (h4.2 hz) h
      | east => rfl
      | west => rfl
  have e5 : dropZoneColon (t.basic sep) = .ok (t.basic sep) := by
    unfold dropZoneColon
    split
    · rfl
    · rw [lastIndex_none _ _ h2]
      simp only
      rw [if_neg]
      simp [IsoTime.basic, fourDigits]
  unfold fromIso
  rw [if_neg h1, if_neg h2, e3, e4, e5]
  simp only [fromStream]
  rw [read_basic width t sep hf hp]

/-! ### What the texts mean -/

theorem isLeap_iff (y : Nat) : DateH.isLeap y = true ↔ leapYear y := by
  rw [leapYear_iff]
  have e4 : (y : Int).tmod 4 = (y : Int) % 4 := Int.tmod_eq_emod_of_nonneg (by omega)
  have e100 : (y : Int).tmod 100 = (y : Int) % 100 := Int.tmod_eq_emod_of_nonneg (by omega)
  have e400 : (y : Int).tmod 400 = (y : Int) % 400 := Int.tmod_eq_emod_of_nonneg (by omega)
  simp only [DateH.isLeap, e4, e100, e400]
  simp

theorem lastDay_eq (y : Nat) (m : Int) (h1 : 1 ≤ m) (h12 : m ≤ 12) : DateH.lastDay y m = monthLen y m := by
  have hl := isLeap_iff y
  have : m = 1 ∨ m = 2 ∨ m = 3 ∨ m = 4 ∨ m = 5 ∨ m = 6 ∨ m = 7 ∨ m = 8 ∨ m = 9 ∨ m = 10 ∨ m = 11 ∨ m = 12 := by omega
  rcases this with rfl | rfl | rfl | rfl | rfl | rfl | rfl | rfl | rfl | rfl | rfl | rfl
  all_goals try (simp [DateH.lastDay, monthLen]; done)
  by_cases h : leapYear y
  · simp [DateH.lastDay, monthLen, h, hl.2 h]
  · have : DateH.isLeap y = false := by
      cases e : DateH.isLeap y with
      | false => rfl
      | true => exact absurd (hl.1 e) h
    simp [DateH.lastDay, monthLen, h, this]

theorem dateOk_iff (width : Nat) (t : IsoTime) :
    dateOk (fieldsOf width t) = true ↔ CDate.Valid ⟨t.year, t.month, t.day⟩ := by
  rw [dateOk, decide_eq_true_iff]
  simp only [fieldsOf]
  constructor
  · rintro ⟨h1, h2, h3, h4⟩
    rw [lastDay_eq _ _ h1 h2] at h4
    exact ⟨h1, h2, h3, h4⟩
  · rintro ⟨h1, h2, h3, h4⟩
    refine ⟨h1, h2, h3, ?_⟩
    rw [lastDay_eq _ _ h1 h2]
    exact h4

theorem fraction_lt (width : Nat) (t : IsoTime) (hf : t.Fits) (hp : t.places ≤ width) :
    t.fraction * 10 ^ (width - t.places) < 10 ^ width := by
  have e : (10 : Nat) ^ width = 10 ^ t.places * 10 ^ (width - t.places) := by
    rw [← Nat.pow_add]; congr 1; omega
  rw [e]
  exact Nat.mul_lt_mul_of_pos_right hf.fraction (Nat.pow_pos (by decide))

theorem timeOk_iff (width : Nat) (t : IsoTime) (hf : t.Fits) (hp : t.places ≤ width) :
    timeOk (10 ^ width) (fieldsOf width t) = true ↔ t.hour < 24 ∧ t.minute < 60 ∧ t.second < 60 := by
  have hl := fraction_lt width t hf hp
  rw [timeOk, decide_eq_true_iff]
  simp only [fieldsOf]
  generalize t.fraction * 10 ^ (width - t.places) = x at hl
  generalize 10 ^ width = q at hl ⊢
  have : t.second * q + x < 60 * q ↔ t.second < 60 := by
    constructor
    · intro h
      by_contra hc
      have : 60 * q ≤ t.second * q := Nat.mul_le_mul_right q (by omega)
      omega
    · intro h
      have : (t.second + 1) * q ≤ 60 * q := Nat.mul_le_mul_right q (by omega)
      rw [Nat.add_mul] at this
      omega
  rw [this]
  omega

theorem zoneRead_eq (z : IsoZone) (h : ZoneOk z) : zoneRead z = z.minutes := by
  cases z with
  | utc => rfl
  | east h m => rfl
  | west h m =>
    simp only [zoneRead, IsoZone.minutes]
    split
    · rename_i h0
      subst h0
      rw [h m rfl]
      simp
    · rfl

theorem result_valid (cal : Int → CDate) (hcal : IsCalendar cal) (width : Nat) (t : IsoTime) (hf : t.Fits)
    (hp : t.places ≤ width) (n : Int) (hn : cal n = ⟨t.year, t.month, t.day⟩)
    (ht : t.hour < 24 ∧ t.minute < 60 ∧ t.second < 60) :
    (if dateOk (fieldsOf width t) && timeOk (10 ^ width) (fieldsOf width t) then instant (10 ^ width) (fieldsOf width t)
      else .error .invalidArgument) =
    if -2 ^ 63 ≤ (n * 86400 - zoneRead t.zone * 60) * 10 ^ width ∧
        ticksOf width t n + (t.zone.minutes - zoneRead t.zone) * 60 * 10 ^ width < 2 ^ 63 - 1
    then .ok ⟨Int64.ofInt (ticksOf width t n + (t.zone.minutes - zoneRead t.zone) * 60 * 10 ^ width)⟩ else .error .ub := by
  have hv : CDate.Valid ⟨t.year, t.month, t.day⟩ := hn ▸ hcal.valid n
  rw [(dateOk_iff width t).2 hv, (timeOk_iff width t hf hp).2 ht]
  have hd : DateH.toDays ⟨t.year, t.month, t.day⟩ = n := by
    rw [hcal.eq] at hn
    rw [← hn]
    exact (fromDays_spec n).2
  simp only [Bool.and_self, if_true, instant, fieldsOf, hd]
  have e1 : (n * 1440 - zoneRead t.zone) * 60 * ((10 ^ width : Nat) : Int) = (n * 86400 - zoneRead t.zone * 60) * 10 ^ width := by
    push_cast; ring
  have e2 : (n * 86400 - zoneRead t.zone * 60) * 10 ^ width + ((t.hour : Int) * 3600 + t.minute * 60) * ((10 ^ width : Nat) : Int) +
      ((t.second * 10 ^ width + t.fraction * 10 ^ (width - t.places) : Nat) : Int) =
      ticksOf width t n + (t.zone.minutes - zoneRead t.zone) * 60 * 10 ^ width := by
    unfold ticksOf IsoTime.secondsSince
    push_cast; ring
  rw [e1, e2]

theorem result_invalid (cal : Int → CDate) (hcal : IsCalendar cal) (width : Nat) (t : IsoTime) (hf : t.Fits)
    (hp : t.places ≤ width)
    (hbad : (∀ n, cal n ≠ ⟨t.year, t.month, t.day⟩) ∨ 24 ≤ t.hour ∨ 60 ≤ t.minute ∨ 60 ≤ t.second) :
    (if dateOk (fieldsOf width t) && timeOk (10 ^ width) (fieldsOf width t) then instant (10 ^ width) (fieldsOf width t)
      else .error .invalidArgument) = .error .invalidArgument := by
  rw [if_neg]
  intro h
  rw [Bool.and_eq_true, dateOk_iff, timeOk_iff width t hf hp] at h
  rcases hbad with hb | hb
  · refine hb (DateH.toDays ⟨t.year, t.month, t.day⟩) ?_
    rw [hcal.eq]
    exact fromDays_toDays _ h.1
  · omega

/-! ### The theorems -/

/-- `r` is the point in time `x` ticks after the epoch. -/
def IsInstant {q : Nat} (r : Except Err (TimePoint q)) (x : Int) : Prop := ∃ tp, r = .ok tp ∧ tp.ticks.toInt = x

theorem ticksOf_lower (width : Nat) (t : IsoTime) (n : Int) :
    (n * 86400 - t.zone.minutes * 60) * 10 ^ width ≤ ticksOf width t n := by
  unfold ticksOf IsoTime.secondsSince
  have h1 : (n * 86400 - t.zone.minutes * 60) * 10 ^ width ≤
      (n * 86400 + t.hour * 3600 + t.minute * 60 + t.second - t.zone.minutes * 60) * (10 : Int) ^ width := by
    apply Int.mul_le_mul_of_nonneg_right
    · omega
    · exact Int.pow_nonneg (by decide)
  have h2 : 0 ≤ (t.fraction : Int) * 10 ^ (width - t.places) :=
    Int.mul_nonneg (by omega) (Int.pow_nonneg (by decide))
  omega

theorem isInstant_of {q : Nat} {x : Int} (h1 : -2 ^ 63 ≤ x) (h2 : x < 2 ^ 63) :
    IsInstant (.ok (⟨Int64.ofInt x⟩ : TimePoint q)) x :=
  ⟨_, rfl, Int64.toInt_ofInt_of_le (by omega) (by omega)⟩

theorem result_instant (cal : Int → CDate) (hcal : IsCalendar cal) (width : Nat) (t : IsoTime) (hf : t.Fits)
    (hp : t.places ≤ width) (n : Int) (hn : cal n = ⟨t.year, t.month, t.day⟩)
    (ht : t.hour < 24 ∧ t.minute < 60 ∧ t.second < 60) (hz : ZoneOk t.zone) (hr : InRange width t n) :
    IsInstant (if dateOk (fieldsOf width t) && timeOk (10 ^ width) (fieldsOf width t) then instant (10 ^ width) (fieldsOf width t)
      else .error .invalidArgument) (ticksOf width t n) := by
  rw [result_valid cal hcal width t hf hp n hn ht, zoneRead_eq _ hz]
  simp only [Int.sub_self, Int.zero_mul, Int.add_zero]
  have hl := ticksOf_lower width t n
  rw [if_pos ⟨hr.1, hr.2⟩]
  exact isInstant_of (by have := hr.1; omega) (by have := hr.2; omega)

/-- **C65, extended format.**  Every text in the extended format that names an existing date and time of day — with any
number of decimals the clock has, `T` or blanks, and a zone with or without a colon — is read as exactly the instant it
names, provided the clock can represent it.  Missing: zones between `-00:01` and `-00:59`. -/
theorem C65_extended_partial (cal : Int → CDate) (hcal : IsCalendar cal) (width : Nat) (t : IsoTime) (sep : IsoSep)
    (colon : Bool) (hf : t.Fits) (hp : t.places ≤ width) (n : Int) (hn : cal n = ⟨t.year, t.month, t.day⟩)
    (ht : t.hour < 24 ∧ t.minute < 60 ∧ t.second < 60) (hz : ZoneOk t.zone) (hr : InRange width t n) :
    IsInstant (fromIso (10 ^ width) width (t.extended sep colon)) (ticksOf width t n) := by
  rw [fromIso_extended width t sep colon hf hp]
  exact result_instant cal hcal width t hf hp n hn ht hz hr

/-- **C65, basic format.**  The same without dashes and colons; missing: zones to the west. -/
theorem C65_basic_partial (cal : Int → CDate) (hcal : IsCalendar cal) (width : Nat) (t : IsoTime) (sep : IsoSep)
    (hf : t.Fits) (hp : t.places ≤ width) (n : Int) (hn : cal n = ⟨t.year, t.month, t.day⟩)
    (ht : t.hour < 24 ∧ t.minute < 60 ∧ t.second < 60) (hz : ∀ h m, t.zone ≠ .west h m) (hr : InRange width t n) :
    IsInstant (fromIso (10 ^ width) width (t.basic sep)) (ticksOf width t n) := by
  rw [fromIso_basic width t sep hf hp hz]
  exact result_instant cal hcal width t hf hp n hn ht (fun m h => absurd h (hz 0 m)) hr

/-- **C65, what does not exist is rejected.**  A text whose date is not in the calendar, or whose time of day is not below
24:00:00 with minutes and seconds below 60, is an invalid argument. -/
theorem C65_rejects (cal : Int → CDate) (hcal : IsCalendar cal) (width : Nat) (t : IsoTime) (sep : IsoSep)
    (colon : Bool) (hf : t.Fits) (hp : t.places ≤ width)
    (hbad : (∀ n, cal n ≠ ⟨t.year, t.month, t.day⟩) ∨ 24 ≤ t.hour ∨ 60 ≤ t.minute ∨ 60 ≤ t.second) :
    fromIso (10 ^ width) width (t.extended sep colon) = .error .invalidArgument ∧
    ((∀ h m, t.zone ≠ .west h m) → fromIso (10 ^ width) width (t.basic sep) = .error .invalidArgument) := by
  constructor
  · rw [fromIso_extended width t sep colon hf hp]
    exact result_invalid cal hcal width t hf hp hbad
  · intro hz
    rw [fromIso_basic width t sep hf hp hz]
    exact result_invalid cal hcal width t hf hp hbad

/-- **C65, zones of less than an hour to the west** are read as zones to the east: the text with `-00:mm` gives what the text
with `+00:mm` gives, which is `2 * mm` minutes early. -/
theorem C65_west_minutes (width : Nat) (t : IsoTime) (sep : IsoSep) (colon : Bool) (m : Nat) (hf : t.Fits)
    (hp : t.places ≤ width) (hz : t.zone = .west 0 m) :
    fromIso (10 ^ width) width (t.extended sep colon) =
      fromIso (10 ^ width) width ({ t with zone := .east 0 m }.extended sep colon) := by
  have hm : m < 100 := by have := hf.zone; rw [hz] at this; exact this.2
  have hf' : ({ t with zone := .east 0 m } : IsoTime).Fits :=
    ⟨hf.year, hf.month, hf.day, hf.hour, hf.minute, hf.second, hf.fraction, by simp [IsoZone.Fits, hm]⟩
  rw [fromIso_extended width t sep colon hf hp, fromIso_extended width _ sep colon hf' hp]
  have : fieldsOf width t = fieldsOf width { t with zone := .east 0 m } := by
    simp [fieldsOf, hz, zoneRead]
  rw [this]

theorem readItems_fail (q width : Nat) (it : Item) (its : List Item) (s : List UInt8) (f : Fields) (e : Err)
    (h : readItem q width it s f = .error e) : readItems q width (it :: its) ⟨s, false⟩ f = .error e := by
  simp [readItems, h]

theorem item_char_fail (q width : Nat) (c d : UInt8) (rest : List UInt8) (f : Fields) (h : d ≠ c) :
    readItem q width (.char c) (d :: rest) f = .error .invalidArgument := by
  simp [readItem, readChar, h]

/-- **C65, the basic format to the west** is never read: the sign of the zone is taken for a dash of the date. -/
theorem C65_basic_west (width : Nat) (t : IsoTime) (sep : IsoSep) (h m : Nat) (hf : t.Fits) (hz : t.zone = .west h m) :
    fromIso (10 ^ width) width (t.basic sep) = .error .invalidArgument := by
  have d58 : isDigit 58 = false := by decide
  have hz58 : 58 ∉ t.zone.text false := by
    cases t.zone <;> simp [IsoZone.text, not_mem_two d58]
  have h1 : 45 ∈ t.basic sep := by simp [IsoTime.basic, hz, IsoZone.text]
  have h2 : 58 ∉ t.basic sep := by
    simp [IsoTime.basic, not_mem_two d58, not_mem_four d58, not_mem_seconds d58 (by decide), hz58, (sep_mem sep).2.2.2]
  have e5 : dropZoneColon (t.basic sep) = .ok (t.basic sep) := by
    unfold dropZoneColon
    split
    · rfl
    · rw [lastIndex_none _ _ h2]
      simp only
      rw [if_neg]
      simp [IsoTime.basic, fourDigits]
  unfold fromIso
  rw [if_pos h1, if_neg h2, e5]
  simp only [fromStream]
  unfold IsoTime.basic
  simp only [List.append_assoc, List.cons_append, List.nil_append]
  rw [readItems_step _ _ _ _ _ _ _ _ (item_year _ _ _ _ _ hf.year)]
  simp only [twoDigits, List.cons_append, List.nil_append]
  rw [readItems_fail _ _ _ _ _ _ _ (item_char_fail _ _ _ _ _ _ (digitChar_ne _ (by decide)))]

/-- The full claim: both formats, every zone. -/
def C65Claim : Prop := ∀ (cal : Int → CDate) (_ : IsCalendar cal) (width : Nat) (t : IsoTime) (sep : IsoSep) (colon : Bool)
    (_ : t.Fits) (_ : t.places ≤ width) (n : Int) (_ : cal n = ⟨t.year, t.month, t.day⟩)
    (_ : t.hour < 24 ∧ t.minute < 60 ∧ t.second < 60) (_ : InRange width t n),
    IsInstant (fromIso (10 ^ width) width (t.extended sep colon)) (ticksOf width t n) ∧
    IsInstant (fromIso (10 ^ width) width (t.basic sep)) (ticksOf width t n)

theorem C65_false : ¬ C65Claim := by
  intro h
  have := (h DateH.fromDays fromDays_isCalendar 0 ⟨1970, 1, 1, 0, 0, 0, 0, 0, .west 8 0⟩ .t false
    ⟨by decide, by decide, by decide, by decide, by decide, by decide, by decide, ⟨by decide, by decide⟩⟩ (by decide) 0 (by decide)
    (by decide) ⟨by decide, by decide⟩).2
  rw [C65_basic_west 0 ⟨1970, 1, 1, 0, 0, 0, 0, 0, .west 8 0⟩ _ 8 0
    ⟨by decide, by decide, by decide, by decide, by decide, by decide, by decide, ⟨by decide, by decide⟩⟩ rfl] at this
  obtain ⟨tp, h, _⟩ := this
  cases h

/-! ### Writing -/

theorem natText_digit {n : Nat} (h : n < 10) : natText n = [digitChar n] := by
  rw [natText, if_pos h]
  congr 1
  apply UInt8.toNat_inj.1
  rw [digitChar_toNat, UInt8.toNat_add, UInt8.toNat_ofNat']
  simp
  omega

theorem natText_more {n : Nat} (h : 10 ≤ n) : natText n = natText (n / 10) ++ [digitChar n] := by
  rw [natText, if_neg (by omega)]
  congr 2
  apply UInt8.toNat_inj.1
  rw [digitChar_toNat, UInt8.toNat_add, UInt8.toNat_ofNat']
  simp
  omega

theorem digitChar_zero {n : Nat} (h : n % 10 = 0) : digitChar n = 48 := by
  simp [digitChar, h]

theorem digitChar_small {n : Nat} (h : n = 0) : digitChar n = 48 := digitChar_zero (by omega)

theorem pad_two {n : Int} (h0 : 0 ≤ n) (h : n < 100) : pad 2 (intText n) = twoDigits n.toNat := by
  obtain ⟨k, rfl⟩ := Int.eq_ofNat_of_zero_le h0
  have hk : k < 100 := by omega
  rw [intText, if_neg (by omega)]
  simp only [Int.natAbs_natCast, Int.toNat_natCast]
  by_cases h1 : k < 10
  · rw [natText_digit h1]
    simp [pad, twoDigits, digitChar_small (show k / 10 = 0 by omega)]
  · rw [natText_more (by omega), natText_digit (by omega)]
    simp [pad, twoDigits]

theorem pad_four {n : Int} (h0 : 0 ≤ n) (h : n < 10000) : pad 4 (intText n) = fourDigits n.toNat := by
  obtain ⟨k, rfl⟩ := Int.eq_ofNat_of_zero_le h0
  have hk : k < 10000 := by omega
  rw [intText, if_neg (by omega)]
  simp only [Int.natAbs_natCast, Int.toNat_natCast]
  have e1 : k / 10 / 10 = k / 100 := by omega
  have e2 : k / 100 / 10 = k / 1000 := by omega
  by_cases h1 : k < 10
  · rw [natText_digit h1]
    simp [pad, fourDigits, digitChar_small (show k / 10 = 0 by omega), digitChar_small (show k / 100 = 0 by omega),
      digitChar_small (show k / 1000 = 0 by omega), List.replicate_succ]
  · by_cases h2 : k < 100
    · rw [natText_more (by omega), natText_digit (by omega)]
      simp [pad, fourDigits, digitChar_small (show k / 100 = 0 by omega),
        digitChar_small (show k / 1000 = 0 by omega), List.replicate_succ]
    · by_cases h3 : k < 1000
      · rw [natText_more (by omega), natText_more (by omega), natText_digit (by omega), e1]
        simp [pad, fourDigits, digitChar_small (show k / 1000 = 0 by omega)]
      · rw [natText_more (by omega), natText_more (by omega), natText_more (by omega), natText_digit (by omega), e1, e2]
        simp [pad, fourDigits]

/-- The text `ToString` gives: the date and the time of day, in universal time, of the second that contains `t`. -/
def written (cal : Int → CDate) (q : Nat) (t : TimePoint q) : IsoTime :=
  let secs := t.ticks.toInt / q
  { year := (cal (secs / 86400)).y.toNat, month := (cal (secs / 86400)).m.toNat, day := (cal (secs / 86400)).d.toNat,
    hour := (secs % 86400 / 3600).toNat, minute := (secs % 86400 / 60 % 60).toNat, second := (secs % 60).toNat,
    places := 0, fraction := 0, zone := .utc }

theorem toIso_eq (cal : Int → CDate) (hcal : IsCalendar cal) (q : Nat) (t : TimePoint q)
    (hy : 0 ≤ (cal (t.ticks.toInt / q / 86400)).y ∧ (cal (t.ticks.toInt / q / 86400)).y ≤ 9999) (colon : Bool) :
    toIso q t = (written cal q t).extended .t colon := by
  have hv := hcal.valid (t.ticks.toInt / q / 86400)
  simp only [toIso, written]
  rw [← hcal.eq]
  generalize t.ticks.toInt / q = secs at hy hv ⊢
  generalize cal (secs / 86400) = x at hy hv ⊢
  have hl : monthLen x.y x.m ≤ 31 := by unfold monthLen; split_ifs <;> omega
  have h1 := hv.m1
  have h2 := hv.m12
  have h3 := hv.d1
  have h4 := hv.dlen
  rw [pad_four (by omega) (by omega), pad_two (by omega) (by omega), pad_two (by omega) (by omega),
    pad_two (by omega) (by omega), pad_two (by omega) (by omega), pad_two (by omega) (by omega)]
  have e1 : secs - secs / 86400 * 86400 = secs % 86400 := by omega
  have e2 : secs % 86400 % 60 = secs % 60 := by omega
  simp [IsoTime.extended, IsoTime.seconds, IsoSep.text, IsoZone.text, e1, e2]

theorem written_facts (cal : Int → CDate) (hcal : IsCalendar cal) (q : Nat) (t : TimePoint q)
    (hy : 0 ≤ (cal (t.ticks.toInt / q / 86400)).y ∧ (cal (t.ticks.toInt / q / 86400)).y ≤ 9999) :
    (written cal q t).Fits ∧
    cal (t.ticks.toInt / q / 86400) = ⟨(written cal q t).year, (written cal q t).month, (written cal q t).day⟩ ∧
    ((written cal q t).hour < 24 ∧ (written cal q t).minute < 60 ∧ (written cal q t).second < 60) ∧
    (written cal q t).secondsSince (t.ticks.toInt / q / 86400) = t.ticks.toInt / q := by
  have hv := hcal.valid (t.ticks.toInt / q / 86400)
  simp only [written, IsoTime.secondsSince]
  generalize t.ticks.toInt / q = secs at hy hv ⊢
  generalize hx : cal (secs / 86400) = x at hy hv ⊢
  have hl : monthLen x.y x.m ≤ 31 := by unfold monthLen; split_ifs <;> omega
  have h1 := hv.m1
  have h2 := hv.m12
  have h3 := hv.d1
  have h4 := hv.dlen
  refine ⟨⟨?_, ?_, ?_, ?_, ?_, ?_, ?_, trivial⟩, ?_, ⟨?_, ?_, ?_⟩, ?_⟩
  all_goals try omega
  all_goals try (simp only; omega)
  · obtain ⟨a, b, c⟩ := x
    simp only at hy h1 h2 h3 h4 hl
    simp only [CDate.mk.injEq]
    omega
  · simp only [IsoZone.minutes]
    omega

/-- **C65, writing.**  The text of a time point is the extended format, in universal time, of the second it lies in. -/
theorem C65_written (cal : Int → CDate) (hcal : IsCalendar cal) (q : Nat) (hq : 0 < q) (t : TimePoint q)
    (hy : 0 ≤ (cal (t.ticks.toInt / q / 86400)).y ∧ (cal (t.ticks.toInt / q / 86400)).y ≤ 9999) :
    ∃ w : IsoTime, toIso q t = w.extended .t true ∧ w.zone = .utc ∧ w.places = 0 ∧ w.hour < 24 ∧ w.minute < 60 ∧
      w.second < 60 ∧ w.Fits ∧
      ∃ n, cal n = ⟨w.year, w.month, w.day⟩ ∧ w.secondsSince n * q ≤ t.ticks.toInt ∧
        t.ticks.toInt < (w.secondsSince n + 1) * q := by
  obtain ⟨h1, h2, h3, h4⟩ := written_facts cal hcal q t hy
  refine ⟨written cal q t, toIso_eq cal hcal q t hy true, rfl, rfl, h3.1, h3.2.1, h3.2.2, h1, _, h2, ?_, ?_⟩
  · rw [h4]
    exact Int.ediv_mul_le _ (by omega)
  · rw [h4]
    exact Int.lt_ediv_add_one_mul_self _ (by omega)

/-- **C65, round trip.**  Reading the text of a time point gives the beginning of its second, if its year has four digits
and the beginning of its day is within the range of the clock. -/
theorem C65_round_trip (cal : Int → CDate) (hcal : IsCalendar cal) (width : Nat) (t : TimePoint (10 ^ width))
    (hy : 0 ≤ (cal (t.ticks.toInt / (10 ^ width : Nat) / 86400)).y ∧ (cal (t.ticks.toInt / (10 ^ width : Nat) / 86400)).y ≤ 9999)
    (hlo : -2 ^ 63 ≤ t.ticks.toInt / (10 ^ width : Nat) / 86400 * 86400 * (10 ^ width : Nat))
    (hhi : t.ticks.toInt / (10 ^ width : Nat) * (10 ^ width : Nat) < 2 ^ 63 - 1) :
    IsInstant (fromIso (10 ^ width) width (toIso (10 ^ width) t)) (t.ticks.toInt / (10 ^ width : Nat) * (10 ^ width : Nat)) := by
  obtain ⟨h1, h2, h3, h4⟩ := written_facts cal hcal _ t hy
  rw [toIso_eq cal hcal _ t hy true]
  have e : ticksOf width (written cal (10 ^ width) t) (t.ticks.toInt / (10 ^ width : Nat) / 86400) =
      t.ticks.toInt / (10 ^ width : Nat) * (10 ^ width : Nat) := by
    unfold ticksOf
    rw [h4]
    simp [written]
  rw [← e] at hhi ⊢
  refine C65_extended_partial cal hcal width _ .t true h1 (Nat.zero_le _) _ h2 h3 (fun m h => by simp [written] at h) ⟨?_, hhi⟩
  simpa [written, IsoZone.minutes] using hlo

/-- **C65, round trip on a clock of nanoseconds**: every time point from 1677-09-22T00:00:00Z on. -/
theorem C65_round_trip_nanoseconds (t : TimePoint (10 ^ 9)) (h : -9223286400000000000 ≤ t.ticks.toInt) :
    IsInstant (fromIso (10 ^ 9) 9 (toIso (10 ^ 9) t)) (t.ticks.toInt / 1000000000 * 1000000000) := by
  have h2 : t.ticks.toInt < 2 ^ 63 := Int64.toInt_lt _
  have key := C65_round_trip DateH.fromDays fromDays_isCalendar 9 t
  simp only [show ((10 ^ 9 : Nat) : Int) = 1000000000 by decide] at key
  generalize t.ticks.toInt = x at h h2 key
  have hd1 : -106751 ≤ x / 1000000000 / 86400 := by omega
  have hd2 : x / 1000000000 / 86400 ≤ 106751 := by omega
  refine key ⟨?_, ?_⟩ (by omega) (by omega)
  · have := (year_iff (x / 1000000000 / 86400) _).1 rfl
    by_contra hc
    have := jan1_mono (show (DateH.fromDays (x / 1000000000 / 86400)).y + 1 ≤ 0 by omega)
    have e : jan1 0 = -719528 := by decide
    omega
  · have := (year_iff (x / 1000000000 / 86400) _).1 rfl
    by_contra hc
    have := jan1_mono (show 10000 ≤ (DateH.fromDays (x / 1000000000 / 86400)).y by omega)
    have e : jan1 10000 = 2932897 := by decide
    omega

/-- **C65, the range of the clock** is not checked: reading an existing date and time beyond it is undefined behaviour. -/
theorem C65_out_of_range (cal : Int → CDate) (hcal : IsCalendar cal) (width : Nat) (t : IsoTime) (sep : IsoSep)
    (colon : Bool) (hf : t.Fits) (hp : t.places ≤ width) (n : Int) (hn : cal n = ⟨t.year, t.month, t.day⟩)
    (ht : t.hour < 24 ∧ t.minute < 60 ∧ t.second < 60) (hz : ZoneOk t.zone) (hr : ¬ InRange width t n) :
    fromIso (10 ^ width) width (t.extended sep colon) = .error .ub := by
  rw [fromIso_extended width t sep colon hf hp, result_valid cal hcal width t hf hp n hn ht, zoneRead_eq _ hz]
  simp only [Int.sub_self, Int.zero_mul, Int.add_zero]
  rw [if_neg]
  exact fun h => hr h

/-- **C65, what follows a `Z`** is not looked at. -/
theorem C65_trailing (width : Nat) (t : IsoTime) (colon : Bool) (junk : List UInt8) (hf : t.Fits) (hp : t.places ≤ width)
    (hz : t.zone = .utc) :
    fromIso (10 ^ width) width (t.extended .t colon ++ junk) = fromIso (10 ^ width) width (t.extended .t colon) := by
  have hc : t.extended .t colon = t.extended .t false := by simp [IsoTime.extended, hz, IsoZone.text]
  rw [fromIso_extended width t .t colon hf hp, hc]
  have h1 : 45 ∈ t.extended .t false ++ junk := by simp [IsoTime.extended]
  have h2 : 58 ∈ t.extended .t false ++ junk := by simp [IsoTime.extended]
  have h3 : 84 ∈ t.extended .t false ++ junk := by simp [IsoTime.extended, IsoSep.text]
  have h4 : 90 ∈ t.extended .t false ++ junk := by simp [IsoTime.extended, hz, IsoZone.text]
  unfold fromIso
  rw [if_pos h1, if_pos h2, if_pos h3, if_pos h4, dropZoneColon, if_pos h4]
  have := read_extended width t .t hf hp junk (.inr hz)
  rw [hz] at this
  simp only [fromStream]
  simp only [sepItem, zoneItem] at this
  rw [this]

/-- **C65, errors.**  Reading a text either gives a time point, or is an invalid argument, or is out of range — exactly for
texts of two characters other than `:` and `Z` — or leaves the range of the clock. -/
theorem C65_errors (q width : Nat) (s : List UInt8) :
    (∀ e, fromIso q width s = .error e → e = .invalidArgument ∨ e = .outOfRange ∨ e = .ub) ∧
    (fromIso q width s = .error .outOfRange ↔ s.length = 2 ∧ 58 ∉ s ∧ 90 ∉ s) := by
  have hd : ∀ e, decimalTicks q s = .error e → e = .invalidArgument := by
    intro e h
    unfold decimalTicks at h
    simp only at h
    split at h
    · injection h with h; exact h.symm
    · cases h
  have hi : ∀ it s f e, readItem q width it s f = .error e → e = .invalidArgument := by
    intro it s f e h
    have num : ∀ (r : Option (Int × Stream)) (g : Int → Fields),
        (match r with | none => Except.error Err.invalidArgument | some (x, s') => .ok (g x, s')) = .error e →
        e = .invalidArgument := by
      intro r g h
      cases r with
      | none => injection h with h; exact h.symm
      | some p => cases h
    cases it with
    | year => exact num (readSigned 1 4 s) _ h
    | month => exact num (readSigned 1 2 s) _ h
    | day => exact num (readSigned 1 2 s) _ h
    | hour => exact num (readUnsigned 1 2 s) _ h
    | minute => exact num (readUnsigned 1 2 s) _ h
    | zone => exact num (readZone s) _ h
    | second =>
      simp only [readItem] at h
      split at h
      · injection h with h; exact h.symm
      · split at h
        · rename_i e' he
          injection h with h
          subst h
          unfold decimalTicks at he
          simp only at he
          split at he
          · injection he with he; exact he.symm
          · cases he
        · cases h
    | char c =>
      simp only [readItem] at h
      split at h
      · injection h with h; exact h.symm
      · cases h
    | blank => cases h
  have hr : ∀ its st f e, readItems q width its st f = .error e → e = .invalidArgument := by
    intro its
    induction its with
    | nil => intro st f e h; cases h
    | cons it its ih =>
      intro st f e h
      simp only [readItems] at h
      split at h
      · injection h with h; exact h.symm
      · split at h
        · rename_i e' he
          injection h with h
          subst h
          exact hi _ _ _ _ he
        · exact ih _ _ _ h
  have hs : ∀ its st e, fromStream q width its st = .error e → e = .invalidArgument ∨ e = .ub := by
    intro its st e h
    unfold fromStream at h
    split at h
    · rename_i e' he
      injection h with h
      subst h
      exact .inl (hr _ _ _ _ he)
    · split at h
      · unfold instant at h
        simp only at h
        split at h
        · cases h
        · injection h with h; exact .inr h.symm
      · injection h with h; exact .inl h.symm
  have hz : ∀ e, dropZoneColon s = .error e ↔ e = .outOfRange ∧ (s.length = 2 ∧ 58 ∉ s ∧ 90 ∉ s) := by
    intro e
    unfold dropZoneColon
    by_cases h90 : 90 ∈ s
    · simp [h90]
    · rw [if_neg h90]
      by_cases h58 : 58 ∈ s
      · have : ∃ i, lastIndex 58 s = some i := by simp [lastIndex, h58]
        obtain ⟨i, hi⟩ := this
        rw [hi]
        simp only
        split <;> simp [h58]
      · rw [lastIndex_none _ _ h58]
        simp only
        split
        · rename_i hl
          simp [hl, h58, h90]
          exact eq_comm
        · rename_i hl
          simp [hl]
  unfold fromIso
  simp only
  cases hc : dropZoneColon s with
  | error e =>
    obtain ⟨rfl, h⟩ := (hz e).1 hc
    constructor
    · intro e h; injection h with h; simp [← h]
    · simp [h]
  | ok t =>
    simp only
    constructor
    · intro e h
      rcases hs _ _ _ h with h | h <;> simp [h]
    · constructor
      · intro h
        rcases hs _ _ _ h with h | h <;> cases h
      · intro h
        have := (hz .outOfRange).2 ⟨rfl, h⟩
        rw [hc] at this
        cases this

/-- **C65, a date-time argument of the C interface.**  A number of seconds is that many seconds after the epoch (undefined
beyond the clock); a text is read up to its first null character; any other announced type is an error. -/
theorem C65_parameter (q width : Nat) :
    (∀ n : Int64, -2 ^ 63 ≤ n.toInt * q → n.toInt * q < 2 ^ 63 → IsInstant (createDateTime q width (.posix n)) (n.toInt * q)) ∧
    (∀ n : Int64, (n.toInt * q < -2 ^ 63 ∨ 2 ^ 63 ≤ n.toInt * q) → createDateTime q width (.posix n) = .error .ub) ∧
    (∀ s rest, 0 ∉ s → createDateTime q width (.text (s ++ 0 :: rest)) = fromIso q width s) ∧
    createDateTime q width .other = .error .runtimeError := by
  refine ⟨?_, ?_, ?_, rfl⟩
  · intro n h1 h2
    simp only [createDateTime, castUp]
    rw [if_pos ⟨h1, h2⟩]
    exact isInstant_of h1 h2
  · intro n h
    simp only [createDateTime, castUp]
    rw [if_neg (by omega)]
  · intro s rest h
    simp only [createDateTime]
    congr 1
    induction s with
    | nil => rfl
    | cons c s ih =>
      simp only [List.mem_cons, not_or] at h
      simp only [cString, List.cons_append, List.takeWhile_cons]
      rw [if_pos (by simpa using Ne.symm h.1)]
      congr 1
      exact ih h.2

/-- **C65, a text without a zone** is rejected. -/
theorem C65_no_zone (width : Nat) (t : IsoTime) (sep : IsoSep) (hf : t.Fits) (hp : t.places ≤ width) :
    fromIso (10 ^ width) width (fourDigits t.year ++ [45] ++ twoDigits t.month ++ [45] ++ twoDigits t.day ++ sep.text ++
      twoDigits t.hour ++ [58] ++ twoDigits t.minute ++ [58] ++ t.seconds) = .error .invalidArgument := by
  generalize hs : fourDigits t.year ++ [45] ++ twoDigits t.month ++ [45] ++ twoDigits t.day ++ sep.text ++
      twoDigits t.hour ++ [58] ++ twoDigits t.minute ++ [58] ++ t.seconds = s
  have d84 : isDigit 84 = false := by decide
  have d90 : isDigit 90 = false := by decide
  have h1 : 45 ∈ s := by simp [← hs]
  have h2 : 58 ∈ s := by simp [← hs]
  have h3 : 84 ∈ s ↔ sepItem sep = .char 84 := by
    simp [← hs, not_mem_two d84, not_mem_four d84, not_mem_seconds d84 (by decide), (sep_mem sep).1]
  have h4 : 90 ∉ s := by
    simp [← hs, not_mem_two d90, not_mem_four d90, not_mem_seconds d90 (by decide), (sep_mem sep).2.1]
  have e3 : (if 84 ∈ s then Item.char 84 else .blank) = sepItem sep := by
    by_cases h : 84 ∈ s
    · rw [if_pos h, h3.1 h]
    · rw [if_neg h]
      cases sep with
      | t => exact absurd (h3.2 rfl) h
      | blanks n => rfl
  have hl : lastIndex 58 s = some (fourDigits t.year ++ [45] ++ twoDigits t.month ++ [45] ++ twoDigits t.day ++ sep.text ++
      twoDigits t.hour ++ [58] ++ twoDigits t.minute).length := by
    have e : s = (fourDigits t.year ++ [45] ++ twoDigits t.month ++ [45] ++ twoDigits t.day ++ sep.text ++
      twoDigits t.hour ++ [58] ++ twoDigits t.minute) ++ 58 :: t.seconds := by simp [← hs]
    rw [e, lastIndex_spec _ _ _ (not_mem_seconds (by decide) (by decide) t)]
  have hc := fun c rest f => item_char (10 ^ width) width c rest f
  simp only [List.cons_append, List.nil_append] at hc
  have hsep := item_sep (10 ^ width) width sep t.hour
  have front : ∀ its rest, ∃ f, readItems (10 ^ width) width (.year :: .char 45 :: .month :: .char 45 :: .day :: sepItem sep ::
      .hour :: .char 58 :: .minute :: its) ⟨fourDigits t.year ++ (45 :: (twoDigits t.month ++ (45 :: (twoDigits t.day ++
        (sep.text ++ (twoDigits t.hour ++ (58 :: (twoDigits t.minute ++ rest)))))))), false⟩ ⟨0, 0, 0, 0, 0, 0, 0⟩ =
      readItems (10 ^ width) width its ⟨rest, false⟩ f := by
    intro its rest
    rw [readItems_step _ _ _ _ _ _ _ _ (item_year _ _ _ _ _ hf.year), readItems_step _ _ _ _ _ _ _ _ (hc _ _ _),
      readItems_step _ _ _ _ _ _ _ _ (item_month _ _ _ _ _ hf.month), readItems_step _ _ _ _ _ _ _ _ (hc _ _ _),
      readItems_step _ _ _ _ _ _ _ _ (item_day _ _ _ _ _ hf.day), readItems_step _ _ _ _ _ _ _ _ (hsep _ _),
      readItems_step _ _ _ _ _ _ _ _ (item_hour _ _ _ _ _ hf.hour), readItems_step _ _ _ _ _ _ _ _ (hc _ _ _),
      readItems_step _ _ _ _ _ _ _ _ (item_minute _ _ _ _ _ hf.minute)]
    exact ⟨_, rfl⟩
  unfold fromIso
  rw [if_pos h1, if_pos h2, if_neg h4, e3, dropZoneColon, if_neg h4, hl]
  simp only [fromStream, List.append_assoc, List.cons_append, List.nil_append]
  by_cases hpl : t.places = 0
  · rw [if_pos (by simp [← hs, IsoTime.seconds, hpl, twoDigits]; omega)]
    have e : s.eraseIdx (fourDigits t.year ++ (45 :: (twoDigits t.month ++ (45 :: (twoDigits t.day ++
        (sep.text ++ (twoDigits t.hour ++ (58 :: (twoDigits t.minute))))))))).length =
        fourDigits t.year ++ (45 :: (twoDigits t.month ++ (45 :: (twoDigits t.day ++
        (sep.text ++ (twoDigits t.hour ++ (58 :: (twoDigits t.minute ++ twoDigits t.second)))))))) := by
      have : s = (fourDigits t.year ++ (45 :: (twoDigits t.month ++ (45 :: (twoDigits t.day ++
        (sep.text ++ (twoDigits t.hour ++ (58 :: (twoDigits t.minute))))))))) ++ 58 :: twoDigits t.second := by
        simp [← hs, IsoTime.seconds, hpl]
      rw [this, List.eraseIdx_append_of_length_le (le_refl _)]
      simp
    simp only
    rw [e]
    obtain ⟨f, h⟩ := front [.char 58, .second, .zone] (twoDigits t.second)
    rw [h]
    have := readItems_fail (10 ^ width) width (.char 58) [.second, .zone] (twoDigits t.second) f .invalidArgument
      (item_char_fail _ _ _ _ _ _ (digitChar_ne _ (by decide)))
    rw [this]
  · rw [if_neg (by simp [← hs, IsoTime.seconds, hpl, twoDigits, digitsOf_length]; omega)]
    have e : s = fourDigits t.year ++ (45 :: (twoDigits t.month ++ (45 :: (twoDigits t.day ++
        (sep.text ++ (twoDigits t.hour ++ (58 :: (twoDigits t.minute ++ (58 :: t.seconds))))))))) := by simp [← hs]
    simp only
    rw [e]
    obtain ⟨f, h⟩ := front [.char 58, .second, .zone] (58 :: t.seconds)
    rw [h, readItems_step _ _ _ _ _ _ _ _ (hc _ _ _)]
    have lem : ∀ (ds : List UInt8) M, (∀ c ∈ ds, isDigit c = true) → ds.length ≤ M →
        ∃ e, takeDecimal false M ds = (ds, ⟨[], e⟩) := by
      intro ds
      induction ds with
      | nil => intro M _ _; cases M <;> exact ⟨_, rfl⟩
      | cons c ds ih =>
        intro M hd hM
        cases M with
        | zero => simp at hM
        | succ M =>
          obtain ⟨e, h⟩ := ih M (fun c hc => hd c (by simp [hc])) (by simp at hM; omega)
          exact ⟨e, by simp [takeDecimal, hd c (by simp), h]⟩
    obtain ⟨ee, hd⟩ := lem (digitsOf t.places t.fraction) width (fun c => digitsOf_isDigit) (by rw [digitsOf_length]; exact hp)
    have hsec : takeDecimal true (secondsWidth width) t.seconds = (t.seconds, ⟨[], ee⟩) := by
      have e3 : secondsWidth width = (width + 1) + 2 := by
        simp only [secondsWidth, show ¬ width = 0 by omega, if_false]
        omega
      rw [e3, IsoTime.seconds, if_neg hpl, takeDecimal_two]
      simp [takeDecimal, hd]
    have hlen : ¬ t.seconds.length < 1 := by simp [IsoTime.seconds, twoDigits]
    have h2 := decimalTicks_seconds t width hp hf
    have hi : ∀ f, ∃ f', readItem (10 ^ width) width .second t.seconds f = .ok (f', ⟨[], ee⟩) := by
      intro f
      exact ⟨{ f with ticks := t.second * 10 ^ width + t.fraction * 10 ^ (width - t.places) },
        by simp only [readItem, hsec, hlen, if_false, h2]⟩
    obtain ⟨f', hi⟩ := hi f
    have : readItems (10 ^ width) width [.second, .zone] ⟨t.seconds, false⟩ f = .error .invalidArgument := by
      simp only [readItems, hi]
      cases ee
      · simp [readItem, readZone, readSigned]
      · simp
    rw [this]

/-! ### Examples -/

/-- 2019-11-26T13:05:09.25+01:00 is 1574769909.25 seconds after the epoch. -/
example : IsInstant (fromIso (10 ^ 9) 9 ("2019-11-26T13:05:09.25+01:00".toUTF8.toList)) 1574769909250000000 :=
  ⟨⟨1574769909250000000⟩, by decide +kernel, by decide +kernel⟩

/-- The hypotheses of `C65_extended_partial` hold of it. -/
example : let t : IsoTime := ⟨2019, 11, 26, 13, 5, 9, 2, 25, .east 1 0⟩
    t.extended .t true = "2019-11-26T13:05:09.25+01:00".toUTF8.toList ∧ t.Fits ∧ t.places ≤ 9 ∧
    DateH.fromDays 18226 = ⟨t.year, t.month, t.day⟩ ∧ ZoneOk t.zone ∧ InRange 9 t 18226 ∧
    ticksOf 9 t 18226 = 1574769909250000000 :=
  ⟨by decide +kernel, ⟨by decide, by decide, by decide, by decide, by decide, by decide, by decide, ⟨by decide, by decide⟩⟩,
    by decide, by decide, (fun m h => by cases h), ⟨by decide +kernel, by decide +kernel⟩, by decide +kernel⟩

/-- February 29 in 2019, and an hour 24. -/
example : fromIso (10 ^ 9) 9 ("2019-02-29T00:00:00Z".toUTF8.toList) = .error .invalidArgument ∧
    fromIso (10 ^ 9) 9 ("20190228 240000Z".toUTF8.toList) = .error .invalidArgument := by decide +kernel

/-- The year 3000 on a clock of nanoseconds. -/
example : fromIso (10 ^ 9) 9 ("3000-01-01T00:00:00Z".toUTF8.toList) = .error .ub := by decide +kernel

end DateText
end Feat
