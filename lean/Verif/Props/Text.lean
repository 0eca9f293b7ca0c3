import Verif.Model.Text
import Mathlib.Tactic.NormNum
/-
C48: conversion of integers and booleans to text and back.
-/
namespace Feat

/-! ### Specification -/

/-- The text `s` starts with a decimal numeral that denotes `z`: white space, an optional sign, at least one digit, and then
no further digit.  (A text that consists of a numeral only is the case without white space and rest.) -/
def Denotes (s : List UInt8) (z : Int) : Prop :=
  ∃ ws sign ds rest, s = ws ++ sign ++ ds ++ rest ∧ (∀ c ∈ ws, isSpace c = true) ∧
    ds ≠ [] ∧ (∀ d ∈ ds, isDigit d = true) ∧ (∀ c, rest.head? = some c → isDigit c = false) ∧
    (((sign = [] ∨ sign = [43]) ∧ z = digitsVal ds) ∨ (sign = [45] ∧ z = -(digitsVal ds : Int)))

/-- The text has no minus sign in front of its numeral. -/
def NoMinus (s : List UInt8) : Prop := (s.dropWhile isSpace).head? ≠ some 45

/-- Converting a text to `T` yields the integer that it denotes if that is in the range of `T`, and throws otherwise. -/
def ParsesText (T : Type) [CInt T] [TextTraits T] (s : List UInt8) (z : Int) : Prop :=
  (CInt.lo T ≤ z ∧ z ≤ CInt.hi T → TextTraits.fromText s = .ok (CInt.ofInt z : T)) ∧
    (¬ (CInt.lo T ≤ z ∧ z ≤ CInt.hi T) → ∃ e, TextTraits.fromText (T := T) s = .error e)

/-! ### Scanning -/

private theorem digit_facts (c : UInt8) (h : isDigit c = true) : isSpace c = false ∧ c ≠ 43 ∧ c ≠ 45 ∧ c ≠ 0 := by
  have key : ∀ n < 256, isDigit (UInt8.ofNat n) = true →
      isSpace (UInt8.ofNat n) = false ∧ UInt8.ofNat n ≠ 43 ∧ UInt8.ofNat n ≠ 45 ∧ UInt8.ofNat n ≠ 0 := by decide +kernel
  have := key c.toNat c.toNat_lt
  rw [UInt8.ofNat_toNat] at this
  exact this h

private theorem space_ne_zero (c : UInt8) (h : isSpace c = true) : c ≠ 0 := by
  rintro rfl
  exact absurd h (by decide)

private theorem dropWhile_prefix {A : Type} (p : A → Bool) (a b : List A) (ha : ∀ x ∈ a, p x = true)
    (hb : ∀ x, b.head? = some x → p x = false) : (a ++ b).dropWhile p = b := by
  induction a with
  | nil =>
    cases b with
    | nil => rfl
    | cons x b => simp [hb x rfl]
  | cons x a ih =>
    rw [List.cons_append, List.dropWhile_cons, if_pos (ha x (by simp))]
    exact ih (fun y hy => ha y (by simp [hy]))

private theorem takeWhile_prefix {A : Type} (p : A → Bool) (a b : List A) (ha : ∀ x ∈ a, p x = true)
    (hb : ∀ x, b.head? = some x → p x = false) : (a ++ b).takeWhile p = a := by
  induction a with
  | nil =>
    cases b with
    | nil => rfl
    | cons x b => simp [hb x rfl]
  | cons x a ih =>
    rw [List.cons_append, List.takeWhile_cons, if_pos (ha x (by simp)), ih (fun y hy => ha y (by simp [hy]))]

private theorem mem_takeWhile {A : Type} {p : A → Bool} {l : List A} {x : A} (h : x ∈ l.takeWhile p) : p x = true := by
  induction l with
  | nil => cases h
  | cons y l ih =>
    rw [List.takeWhile_cons] at h
    split at h
    · rename_i hy
      rcases List.mem_cons.1 h with rfl | h
      · exact hy
      · exact ih h
    · cases h

private theorem scan_eq (s : List UInt8) : scanInt s =
    (let t := s.dropWhile isSpace
     let neg := t.head? == some 45
     let u := if t.head? = some 45 ∨ t.head? = some 43 then t.tail else t
     let ds := u.takeWhile isDigit
     if ds = [] then none else some (neg, digitsVal ds)) := by
  unfold scanInt
  simp only
  generalize s.dropWhile isSpace = t
  cases t with
  | nil => rfl
  | cons c cs =>
    by_cases h1 : c = 45
    · subst h1; rfl
    · by_cases h2 : c = 43
      · subst h2; rfl
      · have h3 : (c == 45) = false := by simpa using h1
        split
        · rename_i h; exact absurd (List.cons.inj h).1 h1
        · rename_i h; exact absurd (List.cons.inj h).1 h2
        · simp [h1, h2, h3]

/-- Scanning a text that denotes a number. -/
theorem scan_denotes (s : List UInt8) (z : Int) (h : Denotes s z) :
    ∃ neg n, scanInt s = some (neg, n) ∧ z = (if neg then -(n : Int) else n) ∧
      (neg = true ↔ (s.dropWhile isSpace).head? = some 45) := by
  obtain ⟨ws, sign, ds, rest, rfl, hws, hds, hdig, hrest, hz⟩ := h
  obtain ⟨d, ds', hd⟩ := List.exists_cons_of_ne_nil hds
  have hd1 := digit_facts d (hdig d (by simp [hd]))
  have h45 : isSpace 45 = false := by decide
  have h43 : isSpace 43 = false := by decide
  have htw : (ds ++ rest).takeWhile isDigit = ds := takeWhile_prefix _ _ _ hdig hrest
  rw [scan_eq, List.append_assoc, List.append_assoc, dropWhile_prefix _ _ _ hws (by
    intro x hx
    rcases hz with ⟨h | h, _⟩ | ⟨h, _⟩
    · rw [h, hd] at hx
      simp only [List.nil_append, List.cons_append, List.head?_cons, Option.some.injEq] at hx
      rw [← hx]; exact hd1.1
    · rw [h] at hx
      simp only [List.cons_append, List.head?_cons, Option.some.injEq] at hx
      rw [← hx]; exact h43
    · rw [h] at hx
      simp only [List.cons_append, List.head?_cons, Option.some.injEq] at hx
      rw [← hx]; exact h45)]
  rcases hz with ⟨h | h, hz⟩ | ⟨h, hz⟩
  · have hh : (ds ++ rest).head? = some d := by rw [hd]; rfl
    refine ⟨false, digitsVal ds, ?_, hz, ?_⟩
    · simp only [h, List.nil_append, hh, Option.some.injEq, hd1.2.1, hd1.2.2.1, or_self, if_false, htw, hds]
      have : (d == 45) = false := by simpa using hd1.2.2.1
      simp [this]
    · simp [h, hh, hd1.2.2.1]
  · refine ⟨false, digitsVal ds, ?_, hz, ?_⟩
    · simp [h, htw, hds]
    · simp [h]
  · refine ⟨true, digitsVal ds, ?_, hz, ?_⟩
    · simp [h, htw, hds]
    · simp [h]

/-- A text is scanned successfully only if it denotes a number. -/
theorem scan_some (s : List UInt8) (neg : Bool) (n : Nat) (h : scanInt s = some (neg, n)) :
    Denotes s (if neg then -(n : Int) else n) := by
  rw [scan_eq] at h
  simp only at h
  have hs : s = s.takeWhile isSpace ++ s.dropWhile isSpace := (List.takeWhile_append_dropWhile).symm
  generalize s.dropWhile isSpace = t at *
  have hws : ∀ c ∈ s.takeWhile isSpace, isSpace c = true := fun c hc => mem_takeWhile hc
  generalize s.takeWhile isSpace = ws at *
  have fin : ∀ u : List UInt8, u.takeWhile isDigit ≠ [] → ∃ ds rest, u = ds ++ rest ∧ ds = u.takeWhile isDigit ∧ ds ≠ [] ∧
      (∀ d ∈ ds, isDigit d = true) ∧ (∀ c, rest.head? = some c → isDigit c = false) := by
    intro u hu
    refine ⟨u.takeWhile isDigit, u.dropWhile isDigit, List.takeWhile_append_dropWhile.symm, rfl, hu,
      fun d hd => mem_takeWhile hd, ?_⟩
    intro c hc
    have := List.head?_dropWhile_not isDigit u
    rw [hc] at this
    simpa using this
  generalize hU : (if t.head? = some 45 ∨ t.head? = some 43 then t.tail else t) = u at h
  split at h
  · cases h
  · rename_i hne
    obtain ⟨ds, rest, hu, hds, h1, h2, h3⟩ := fin _ hne
    rw [← hds] at h
    simp only [Option.some.injEq, Prod.mk.injEq] at h
    obtain ⟨hneg, hn⟩ := h
    by_cases h45 : t.head? = some 45
    · obtain ⟨cs, rfl⟩ : ∃ cs, t = 45 :: cs := by
        cases t with
        | nil => cases h45
        | cons c cs => simp only [List.head?_cons, Option.some.injEq] at h45; exact ⟨cs, by rw [h45]⟩
      simp only [List.head?_cons, true_or, if_true, List.tail_cons] at hU
      subst hU
      refine ⟨ws, [45], ds, rest, by rw [hs, hu]; simp, hws, h1, h2, h3, .inr ⟨rfl, ?_⟩⟩
      rw [← hneg, ← hn]; simp
    · by_cases h43 : t.head? = some 43
      · obtain ⟨cs, rfl⟩ : ∃ cs, t = 43 :: cs := by
          cases t with
          | nil => cases h43
          | cons c cs => simp only [List.head?_cons, Option.some.injEq] at h43; exact ⟨cs, by rw [h43]⟩
        simp only [List.head?_cons, or_true, if_true, List.tail_cons] at hU
        subst hU
        refine ⟨ws, [43], ds, rest, by rw [hs, hu]; simp, hws, h1, h2, h3, .inl ⟨.inr rfl, ?_⟩⟩
        rw [← hneg, ← hn]; simp
      · rw [if_neg (by simp [h45, h43])] at hU
        subst hU
        refine ⟨ws, [], ds, rest, by rw [hs, hu]; simp, hws, h1, h2, h3, .inl ⟨.inl rfl, ?_⟩⟩
        have : neg = false := by rw [← hneg]; simpa using h45
        rw [this, ← hn]; simp

/-- Ending the string at the first null character does not change what it denotes. -/
theorem cString_denotes (s : List UInt8) (z : Int) (h : Denotes s z) : Denotes (cString s) z := by
  obtain ⟨ws, sign, ds, rest, rfl, hws, hds, hdig, hrest, hz⟩ := h
  have happ : ∀ a b : List UInt8, (∀ c ∈ a, c ≠ 0) → cString (a ++ b) = a ++ cString b := by
    intro a b ha
    unfold cString
    induction a with
    | nil => rfl
    | cons x a ih =>
      have := ha x (by simp)
      rw [List.cons_append, List.takeWhile_cons, if_pos (by simpa using this), ih (fun c hc => ha c (by simp [hc]))]
      rfl
  refine ⟨ws, sign, ds, cString rest, ?_, hws, hds, hdig, ?_, hz⟩
  · rw [happ]
    intro c hc
    rcases List.mem_append.1 hc with hc | hc
    · rcases List.mem_append.1 hc with hc | hc
      · exact space_ne_zero c (hws c hc)
      · rcases hz with ⟨h | h, _⟩ | ⟨h, _⟩
        · rw [h] at hc; cases hc
        · rw [h, List.mem_singleton] at hc; rw [hc]; decide
        · rw [h, List.mem_singleton] at hc; rw [hc]; decide
    · exact (digit_facts c (hdig c hc)).2.2.2
  · intro c hc
    cases rest with
    | nil => cases hc
    | cons x rest =>
      unfold cString at hc
      rw [List.takeWhile_cons] at hc
      split at hc
      · simp only [List.head?_cons, Option.some.injEq] at hc
        exact hrest c (by simp [hc])
      · cases hc

private theorem cString_noMinus (s : List UInt8) (h : NoMinus s) : NoMinus (cString s) := by
  unfold NoMinus cString at *
  induction s with
  | nil => simp
  | cons c s ih =>
    rw [List.takeWhile_cons]
    split
    · rw [List.dropWhile_cons] at h ⊢
      split
      · rename_i hsp
        rw [if_pos hsp] at h
        exact ih h
      · rename_i hsp
        rw [if_neg hsp] at h
        simpa using h
    · simp

/-! ### Parsing -/

private theorem stoSigned_spec (lo hi : Int) (s : List UInt8) (z : Int) (h : Denotes s z) :
    stoSigned lo hi s = if z < lo ∨ hi < z then .error .outOfRange else .ok z := by
  obtain ⟨neg, n, h1, h2, _⟩ := scan_denotes s z h
  unfold stoSigned
  rw [h1]
  simp only [h2]

private theorem stoUnsigned_spec (s : List UInt8) (z : Int) (h : Denotes s z) (hm : NoMinus s) :
    stoUnsigned s = (if 2 ^ 64 ≤ z.toNat then .error .outOfRange else .ok z.toNat) ∧ 0 ≤ z := by
  obtain ⟨neg, n, h1, h2, h3⟩ := scan_denotes s z h
  have : neg = false := by
    cases neg with
    | false => rfl
    | true => exact absurd (h3.1 rfl) hm
  subst this
  simp only [Bool.false_eq_true, if_false] at h2
  subst h2
  unfold stoUnsigned
  rw [h1]
  simp

/-- **C48 (signed types)** For the signed types, every text that starts with a numeral is converted to the number that it
denotes if it is in the range of the type, and rejected otherwise. -/
theorem C48_signed (s : List UInt8) (z : Int) (h : Denotes s z) :
    ParsesText Int8 s z ∧ ParsesText Int16 s z ∧ ParsesText Int32 s z ∧ ParsesText Int64 s z := by
  have hc := cString_denotes s z h
  have small : ∀ (T : Type) [CInt T] (a b : Int), a ≤ CInt.lo T → CInt.hi T ≤ b →
      (CInt.lo T ≤ z ∧ z ≤ CInt.hi T → narrowSigned T (stoSigned a b (cString s)) = .ok (CInt.ofInt z)) ∧
      (¬ (CInt.lo T ≤ z ∧ z ≤ CInt.hi T) → ∃ e, narrowSigned T (stoSigned a b (cString s)) = .error e) := by
    intro T _ a b ha hb
    rw [stoSigned_spec _ _ _ _ hc]
    constructor
    · rintro ⟨h1, h2⟩
      rw [if_neg (by omega)]
      show (if _ then _ else _) = _
      rw [if_neg (by omega)]
    · intro hn
      split
      · exact ⟨_, rfl⟩
      · refine ⟨.invalidArgument, ?_⟩
        show (if _ then _ else _) = _
        rw [if_pos (by omega)]
  have large : ∀ (T : Type) [CInt T] (f : Int → T), (∀ z, f z = CInt.ofInt z) →
      (CInt.lo T ≤ z ∧ z ≤ CInt.hi T →
        (stoSigned (CInt.lo T) (CInt.hi T) (cString s)).map f = .ok (CInt.ofInt z)) ∧
      (¬ (CInt.lo T ≤ z ∧ z ≤ CInt.hi T) → ∃ e, (stoSigned (CInt.lo T) (CInt.hi T) (cString s)).map f = .error e) := by
    intro T _ f hf
    rw [stoSigned_spec _ _ _ _ hc]
    constructor
    · rintro ⟨h1, h2⟩
      rw [if_neg (by omega)]
      simp [Except.map, hf]
    · intro hn
      rw [if_pos (by omega)]
      exact ⟨_, rfl⟩
  exact ⟨small Int8 _ _ (by decide) (by decide), small Int16 _ _ (by decide) (by decide),
    large Int32 Int32.ofInt (fun _ => rfl), large Int64 Int64.ofInt (fun _ => rfl)⟩

/-- **C48 (unsigned types)** The same for the unsigned types and every text whose numeral has no minus sign.  What is
missing: with a minus sign the value is taken modulo 2⁶⁴ (`C48_wraps`). -/
theorem C48_unsigned_partial (s : List UInt8) (z : Int) (h : Denotes s z) (hm : NoMinus s) :
    ParsesText UInt8 s z ∧ ParsesText UInt16 s z ∧ ParsesText UInt32 s z ∧ ParsesText UInt64 s z := by
  obtain ⟨hs, hz⟩ := stoUnsigned_spec _ z (cString_denotes s z h) (cString_noMinus s hm)
  have small : ∀ (T : Type) [CInt T], CInt.lo T = 0 → CInt.hi T < 2 ^ 64 →
      (CInt.lo T ≤ z ∧ z ≤ CInt.hi T → narrowUnsigned T (stoUnsigned (cString s)) = .ok (CInt.ofInt z)) ∧
      (¬ (CInt.lo T ≤ z ∧ z ≤ CInt.hi T) → ∃ e, narrowUnsigned T (stoUnsigned (cString s)) = .error e) := by
    intro T _ ha hb
    rw [hs]
    constructor
    · rintro ⟨h1, h2⟩
      rw [if_neg (by omega)]
      show (if _ then _ else _) = _
      rw [if_neg (by omega), Int.toNat_of_nonneg hz]
    · intro hn
      split
      · exact ⟨_, rfl⟩
      · refine ⟨.invalidArgument, ?_⟩
        show (if _ then _ else _) = _
        rw [if_pos (by omega)]
  refine ⟨small UInt8 rfl (by decide), small UInt16 rfl (by decide), small UInt32 rfl (by decide), ?_⟩
  unfold ParsesText
  show (0 ≤ z ∧ z ≤ 18446744073709551615 → (stoUnsigned (cString s)).map UInt64.ofNat = _) ∧
    (¬ (0 ≤ z ∧ z ≤ 18446744073709551615) → ∃ e, (stoUnsigned (cString s)).map UInt64.ofNat = _)
  rw [hs]
  constructor
  · rintro ⟨h1, h2⟩
    rw [if_neg (by omega)]
    show Except.ok (UInt64.ofNat z.toNat) = Except.ok (UInt64.ofNat (z % 18446744073709551616).toNat)
    rw [Int.emod_eq_of_lt h1 (by omega)]
  · intro hn
    rw [if_pos (by omega)]
    exact ⟨_, rfl⟩

/-- **C48 (no numeral)** A text without a numeral is rejected by every integer type. -/
theorem C48_no_numeral (s : List UInt8) (h : ∀ z, ¬ Denotes (cString s) z) :
    (∃ e, TextTraits.fromText (T := Int8) s = .error e) ∧ (∃ e, TextTraits.fromText (T := Int16) s = .error e) ∧
    (∃ e, TextTraits.fromText (T := Int32) s = .error e) ∧ (∃ e, TextTraits.fromText (T := Int64) s = .error e) ∧
    (∃ e, TextTraits.fromText (T := UInt8) s = .error e) ∧ (∃ e, TextTraits.fromText (T := UInt16) s = .error e) ∧
    (∃ e, TextTraits.fromText (T := UInt32) s = .error e) ∧ (∃ e, TextTraits.fromText (T := UInt64) s = .error e) := by
  have hn : scanInt (cString s) = none := by
    rcases hs : scanInt (cString s) with _ | ⟨neg, n⟩
    · rfl
    · exact absurd (scan_some _ _ _ hs) (h _)
  refine ⟨⟨.invalidArgument, ?_⟩, ⟨.invalidArgument, ?_⟩, ⟨.invalidArgument, ?_⟩, ⟨.invalidArgument, ?_⟩,
    ⟨.invalidArgument, ?_⟩, ⟨.invalidArgument, ?_⟩, ⟨.invalidArgument, ?_⟩, ⟨.invalidArgument, ?_⟩⟩ <;>
  simp only [TextTraits.fromText, stoSigned, stoUnsigned, hn, narrowSigned, narrowUnsigned, Except.map]

/-- **C48 (negative numerals wrap)** "-1" is converted to 2⁶⁴ − 1 as a `uint64_t`, and "-18446744073709551615" to 1 as a
`uint8_t`: numbers outside the range that are not rejected. -/
theorem C48_wraps : (TextTraits.fromText (T := UInt64) [45, 49] = .ok 18446744073709551615) ∧
    Denotes [45, 49] (-1) ∧ ¬ ParsesText UInt64 [45, 49] (-1) ∧
    Denotes [45, 49, 56, 52, 52, 54, 55, 52, 52, 48, 55, 51, 55, 48, 57, 53, 53, 49, 54, 49, 53] (-18446744073709551615) ∧
    TextTraits.fromText (T := UInt8) [45, 49, 56, 52, 52, 54, 55, 52, 52, 48, 55, 51, 55, 48, 57, 53, 53, 49, 54, 49, 53]
      = .ok 1 := by
  have h1 : TextTraits.fromText (T := UInt64) [45, 49] = .ok 18446744073709551615 := by
    show ((stoUnsigned [45, 49]).map UInt64.ofNat) = _
    have : stoUnsigned [45, 49] = .ok 18446744073709551615 := by decide +kernel
    rw [this]; rfl
  refine ⟨h1, ⟨[], [45], [49], [], rfl, by simp, by simp, by decide, by simp, .inr ⟨rfl, by decide⟩⟩, ?_,
    ⟨[], [45], [49, 56, 52, 52, 54, 55, 52, 52, 48, 55, 51, 55, 48, 57, 53, 53, 49, 54, 49, 53], [], rfl, by simp, by simp,
      by decide, by simp, .inr ⟨rfl, by decide⟩⟩, ?_⟩
  · intro h
    obtain ⟨e, he⟩ := h.2 (by decide)
    rw [h1] at he
    cases he
  · show narrowUnsigned UInt8 (stoUnsigned _) = _
    have : stoUnsigned [45, 49, 56, 52, 52, 54, 55, 52, 52, 48, 55, 51, 55, 48, 57, 53, 53, 49, 54, 49, 53] = .ok 1 := by
      decide +kernel
    have hc : cString [45, 49, 56, 52, 52, 54, 55, 52, 52, 48, 55, 51, 55, 48, 57, 53, 53, 49, 54, 49, 53]
        = [45, 49, 56, 52, 52, 54, 55, 52, 52, 48, 55, 51, 55, 48, 57, 53, 53, 49, 54, 49, 53] := by decide
    rw [hc, this]
    rfl

/-! ### Round trips -/

private theorem digit_text (n : Nat) (h : n < 10) :
    isDigit (48 + UInt8.ofNat n) = true ∧ (48 + UInt8.ofNat n).toNat - 48 = n := by
  have key : ∀ n < 10, isDigit (48 + UInt8.ofNat n) = true ∧ (48 + UInt8.ofNat n).toNat - 48 = n := by decide
  exact key n h

theorem natText_spec (n : Nat) :
    natText n ≠ [] ∧ (∀ d ∈ natText n, isDigit d = true) ∧ digitsVal (natText n) = n := by
  induction n using Nat.strongRecOn with
  | _ n ih =>
    rw [natText]
    split
    · rename_i h
      obtain ⟨h1, h2⟩ := digit_text n h
      refine ⟨by simp, by simpa using h1, ?_⟩
      simpa [digitsVal] using h2
    · rename_i h
      obtain ⟨h1, h2, h3⟩ := ih (n / 10) (by omega)
      obtain ⟨h4, h5⟩ := digit_text (n % 10) (by omega)
      refine ⟨by simp, ?_, ?_⟩
      · intro d hd
        rcases List.mem_append.1 hd with hd | hd
        · exact h2 d hd
        · rw [List.mem_singleton] at hd; rw [hd]; exact h4
      · unfold digitsVal at h3 ⊢
        rw [List.foldl_append, h3, List.foldl_cons, List.foldl_nil, h5]
        omega

/-- The text written for an integer denotes it. -/
theorem intText_denotes (z : Int) : Denotes (intText z) z ∧ (0 ≤ z → NoMinus (intText z)) := by
  obtain ⟨h1, h2, h3⟩ := natText_spec z.natAbs
  unfold intText
  constructor
  · split
    · exact ⟨[], [45], _, [], by simp, by simp, h1, h2, by simp, .inr ⟨rfl, by rw [h3]; omega⟩⟩
    · exact ⟨[], [], _, [], by simp, by simp, h1, h2, by simp, .inl ⟨.inl rfl, by rw [h3]; omega⟩⟩
  · intro hz
    rw [if_neg (by omega)]
    obtain ⟨d, ds, hd⟩ := List.exists_cons_of_ne_nil h1
    have hdd := digit_facts d (h2 d (by simp [hd]))
    rw [hd]
    unfold NoMinus
    rw [List.dropWhile_cons, if_neg (by simp [hdd.1])]
    simpa using hdd.2.2.1

/-- **C48 (round trips)** Converting a boolean or an integer of any width to text and back yields the same value. -/
theorem C48_round_trip :
    (∀ x : Bool, TextTraits.fromText (TextTraits.toText x) = .ok x) ∧
    (∀ x : Int8, TextTraits.fromText (TextTraits.toText x) = .ok x) ∧
    (∀ x : Int16, TextTraits.fromText (TextTraits.toText x) = .ok x) ∧
    (∀ x : Int32, TextTraits.fromText (TextTraits.toText x) = .ok x) ∧
    (∀ x : Int64, TextTraits.fromText (TextTraits.toText x) = .ok x) ∧
    (∀ x : UInt8, TextTraits.fromText (TextTraits.toText x) = .ok x) ∧
    (∀ x : UInt16, TextTraits.fromText (TextTraits.toText x) = .ok x) ∧
    (∀ x : UInt32, TextTraits.fromText (TextTraits.toText x) = .ok x) ∧
    (∀ x : UInt64, TextTraits.fromText (TextTraits.toText x) = .ok x) := by
  have key : ∀ (T : Type) [CInt T] [TextTraits T] (x : T), ParsesText T (intText (CInt.toInt x)) (CInt.toInt x) →
      TextTraits.fromText (intText (CInt.toInt x)) = .ok x := by
    intro T _ _ x h
    have := h.1 (CInt.range x)
    rw [CInt.ofInt_toInt] at this
    exact this
  refine ⟨?_, ?_, ?_, ?_, ?_, ?_, ?_, ?_, ?_⟩
  · intro x; cases x <;> rfl
  · intro x; exact key Int8 x (C48_signed _ _ (intText_denotes _).1).1
  · intro x; exact key Int16 x (C48_signed _ _ (intText_denotes _).1).2.1
  · intro x; exact key Int32 x (C48_signed _ _ (intText_denotes _).1).2.2.1
  · intro x; exact key Int64 x (C48_signed _ _ (intText_denotes _).1).2.2.2
  · intro x; exact key UInt8 x (C48_unsigned_partial _ _ (intText_denotes _).1 ((intText_denotes _).2 (CInt.range x).1)).1
  · intro x; exact key UInt16 x (C48_unsigned_partial _ _ (intText_denotes _).1 ((intText_denotes _).2 (CInt.range x).1)).2.1
  · intro x
    exact key UInt32 x (C48_unsigned_partial _ _ (intText_denotes _).1 ((intText_denotes _).2 (CInt.range x).1)).2.2.1
  · intro x
    exact key UInt64 x (C48_unsigned_partial _ _ (intText_denotes _).1 ((intText_denotes _).2 (CInt.range x).1)).2.2.2

/-- **C48 (booleans).**  Exactly the text "True" is true; every other text is false, and none is rejected. -/
theorem C48_booleans (s : List UInt8) :
    (TextTraits.fromText s = .ok true ↔ s = "True".toList.map fun c => UInt8.ofNat c.toNat) ∧
    (TextTraits.fromText s = .ok false ↔ s ≠ "True".toList.map fun c => UInt8.ofNat c.toNat) := by
  have e : ("True".toList.map fun c => UInt8.ofNat c.toNat) = [84, 114, 117, 101] := by decide +kernel
  rw [e]
  show (Except.ok (s == [84, 114, 117, 101]) = (.ok true : Except Err Bool) ↔ _) ∧
    (Except.ok (s == [84, 114, 117, 101]) = (.ok false : Except Err Bool) ↔ _)
  simp

/-- " +300 rows" denotes 300: a `uint16_t`, but not a `uint8_t` or `int8_t`. -/
example : Denotes [32, 43, 51, 48, 48, 32, 114] 300 ∧ NoMinus [32, 43, 51, 48, 48, 32, 114] ∧
    TextTraits.fromText (T := UInt16) [32, 43, 51, 48, 48, 32, 114] = .ok 300 ∧
    TextTraits.fromText (T := UInt8) [32, 43, 51, 48, 48, 32, 114] = .error .invalidArgument ∧
    TextTraits.fromText (T := Int8) [32, 43, 51, 48, 48, 32, 114] = .error .invalidArgument :=
  ⟨⟨[32], [43], [51, 48, 48], [32, 114], rfl, by decide, by decide, by decide, by decide, .inl ⟨.inr rfl, by decide⟩⟩,
    by unfold NoMinus; decide, rfl, rfl, rfl⟩

/-! ### C56: the string featurizers -/

/-- **C56 (round trip)** Converting an optional value to a string with the string featurizer and back with the from-string
featurizer, with the same setting for null values, yields it unchanged: for every type whose own conversion round trips and
whose texts are never empty or "NULL". -/
theorem C56_round_trip {T : Type} [TextTraits T] (hrt : ∀ x : T, TextTraits.fromText (TextTraits.toText x) = .ok x)
    (hnull : ∀ x : T, TextTraits.toText x ≠ [78, 85, 76, 76] ∧ TextTraits.toText x ≠ []) (empty : Bool) (x : Option T) :
    fromStringTransform empty (stringTransform empty x) = .ok x := by
  unfold fromStringTransform stringTransform
  cases x with
  | none =>
    cases empty with
    | true => rfl
    | false =>
      simp only [Bool.false_eq_true, false_and, if_false]
      exact if_pos rfl
  | some v =>
    obtain ⟨h1, h2⟩ := hnull v
    have h3 : TextTraits.toText (some v) = TextTraits.toText v := rfl
    simp only [Option.isNone_some, Bool.false_eq_true, and_false, if_false, h3, h2]
    show (if _ then _ else _) = _
    rw [if_neg h1, hrt]
    rfl

/-- The integer types and booleans satisfy the hypotheses of `C56_round_trip`. -/
theorem C56_numbers (empty : Bool) :
    (∀ x : Option Bool, fromStringTransform empty (stringTransform empty x) = .ok x) ∧
    (∀ x : Option Int8, fromStringTransform empty (stringTransform empty x) = .ok x) ∧
    (∀ x : Option Int16, fromStringTransform empty (stringTransform empty x) = .ok x) ∧
    (∀ x : Option Int32, fromStringTransform empty (stringTransform empty x) = .ok x) ∧
    (∀ x : Option Int64, fromStringTransform empty (stringTransform empty x) = .ok x) ∧
    (∀ x : Option UInt8, fromStringTransform empty (stringTransform empty x) = .ok x) ∧
    (∀ x : Option UInt16, fromStringTransform empty (stringTransform empty x) = .ok x) ∧
    (∀ x : Option UInt32, fromStringTransform empty (stringTransform empty x) = .ok x) ∧
    (∀ x : Option UInt64, fromStringTransform empty (stringTransform empty x) = .ok x) := by
  have hint : ∀ z : Int, intText z ≠ [78, 85, 76, 76] ∧ intText z ≠ [] := by
    intro z
    obtain ⟨h1, h2, _⟩ := natText_spec z.natAbs
    unfold intText
    constructor
    · intro h
      split at h
      · simp at h
      · have := h2 78 (by rw [h]; simp)
        exact absurd this (by decide)
    · split
      · simp
      · exact h1
  obtain ⟨r1, r2, r3, r4, r5, r6, r7, r8, r9⟩ := C48_round_trip
  exact ⟨fun x => C56_round_trip r1 (by intro x; cases x <;> decide) empty x,
    fun x => C56_round_trip r2 (fun _ => hint _) empty x, fun x => C56_round_trip r3 (fun _ => hint _) empty x,
    fun x => C56_round_trip r4 (fun _ => hint _) empty x, fun x => C56_round_trip r5 (fun _ => hint _) empty x,
    fun x => C56_round_trip r6 (fun _ => hint _) empty x, fun x => C56_round_trip r7 (fun _ => hint _) empty x,
    fun x => C56_round_trip r8 (fun _ => hint _) empty x, fun x => C56_round_trip r9 (fun _ => hint _) empty x⟩

/-- **C56 (strings)** The string "NULL" comes back as null, and so does the empty string when empty strings stand for null
values: for optional strings the round trip does not hold. -/
theorem C56_strings : fromStringTransform false (stringTransform false (some (⟨[78, 85, 76, 76]⟩ : Str))) = .ok (none : Option Str) ∧
    fromStringTransform true (stringTransform true (some (⟨[]⟩ : Str))) = .ok (none : Option Str) := ⟨rfl, rfl⟩

/-- Every other string round trips. -/
theorem C56_other_strings (empty : Bool) (s : Str) (h1 : s.chars ≠ [78, 85, 76, 76]) (h2 : empty = true → s.chars ≠ []) :
    fromStringTransform empty (stringTransform empty (some s)) = .ok (some s) := by
  unfold fromStringTransform stringTransform
  have h3 : TextTraits.toText (some s) = s.chars := rfl
  simp only [Option.isNone_some, Bool.false_eq_true, and_false, if_false, h3]
  rw [if_neg (by rintro ⟨h, h'⟩; exact h2 h h')]
  show (if _ then _ else _) = _
  rw [if_neg h1]
  rfl

end Feat
