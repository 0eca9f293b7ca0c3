import Verif.Spec.FloatText
import Verif.Proofs.FloatText
import Verif.Proofs.FloatShape
import Verif.Props.Text
import Mathlib.Tactic.SplitIfs
import Mathlib.Data.List.Induction
/-
C67: floating point numbers and their texts.
-/
namespace Feat.FloatText

/-! ### Scanning -/

theorem takeWhile_front {A : Type} (p : A → Bool) (a b : List A) (ha : ∀ x ∈ a, p x = true)
    (hb : ∀ x, b.head? = some x → p x = false) : (a ++ b).takeWhile p = a := by
  induction a with
  | nil =>
    cases b with
    | nil => rfl
    | cons x b => simp [hb x rfl]
  | cons x a ih =>
    rw [List.cons_append, List.takeWhile_cons, if_pos (ha x (by simp)), ih (fun y hy => ha y (by simp [hy]))]

theorem dropWhile_front {A : Type} (p : A → Bool) (a b : List A) (ha : ∀ x ∈ a, p x = true)
    (hb : ∀ x, b.head? = some x → p x = false) : (a ++ b).dropWhile p = b := by
  induction a with
  | nil =>
    cases b with
    | nil => rfl
    | cons x b => simp [hb x rfl]
  | cons x a ih =>
    rw [List.cons_append, List.dropWhile_cons, if_pos (ha x (by simp))]
    exact ih (fun y hy => ha y (by simp [hy]))

/-- A property of bytes, checked for each. -/
theorem byte_all {P : UInt8 → Prop} (h : ∀ n < 256, P (UInt8.ofNat n)) (c : UInt8) : P c := by
  have := h c.toNat c.toNat_lt
  rwa [UInt8.ofNat_toNat] at this

theorem digit_byte (c : UInt8) : isDigit c = true → isSpace c = false ∧ c ≠ 43 ∧ c ≠ 45 ∧ c ≠ 46 ∧ c ≠ 0 ∧
    lowerByte c ≠ 105 ∧ lowerByte c ≠ 110 ∧ lowerByte c ≠ 120 ∧ c ≠ 78 ∧ lowerByte c ≠ 101 :=
  byte_all (P := fun c => isDigit c = true → isSpace c = false ∧ c ≠ 43 ∧ c ≠ 45 ∧ c ≠ 46 ∧ c ≠ 0 ∧
    lowerByte c ≠ 105 ∧ lowerByte c ≠ 110 ∧ lowerByte c ≠ 120 ∧ c ≠ 78 ∧ lowerByte c ≠ 101) (by decide +kernel) c

theorem lower_e (c : UInt8) : lowerByte c = 101 ↔ c = 101 ∨ c = 69 :=
  byte_all (P := fun c => lowerByte c = 101 ↔ c = 101 ∨ c = 69) (by decide +kernel) c

theorem lower_x (c : UInt8) : lowerByte c = 120 ↔ c = 120 ∨ c = 88 :=
  byte_all (P := fun c => lowerByte c = 120 ↔ c = 120 ∨ c = 88) (by decide +kernel) c

theorem digitsVal_append (a b : List UInt8) : digitsVal (a ++ b) = digitsVal a * 10 ^ b.length + digitsVal b := by
  induction b using List.reverseRecOn with
  | nil => simp [digitsVal]
  | append_singleton b d ih =>
    unfold digitsVal at ih ⊢
    rw [← List.append_assoc, List.foldl_append, ih, List.foldl_append]
    simp only [List.foldl_cons, List.foldl_nil, List.length_append, List.length_cons, List.length_nil]
    rw [pow_succ]
    ring

theorem scanExponent_spec (expo rest : List UInt8) (e : ℤ)
    (he : expo = [] ∧ e = 0 ∨
      ∃ letter esign ds, expo = letter :: (esign ++ ds) ∧ (letter = 101 ∨ letter = 69) ∧ (∀ c ∈ ds, isDigit c = true) ∧ ds ≠ [] ∧
        (esign = [45] ∧ e = -(digitsVal ds : ℤ) ∨ (esign = [] ∨ esign = [43]) ∧ e = digitsVal ds))
    (hrest : ∀ c, rest.head? = some c → isDigit c = false ∧ c ≠ 101 ∧ c ≠ 69) :
    scanExponent 101 (expo ++ rest) = e := by
  rcases he with ⟨rfl, rfl⟩ | ⟨letter, esign, ds, rfl, hl, hd, hne, hs⟩
  · cases rest with
    | nil => rfl
    | cons c cs =>
      have := hrest c rfl
      rw [List.nil_append, scanExponent, if_neg]
      rw [lower_e]
      rintro (h | h)
      · exact this.2.1 h
      · exact this.2.2 h
  · have htw : (ds ++ rest).takeWhile isDigit = ds := takeWhile_front _ _ _ hd fun c hc => (hrest c hc).1
    obtain ⟨d, ds', rfl⟩ := List.exists_cons_of_ne_nil hne
    have hdd := digit_byte d (hd d (by simp))
    rw [List.cons_append, List.append_assoc, scanExponent, if_pos ((lower_e _).2 hl)]
    rcases hs with ⟨rfl, rfl⟩ | ⟨rfl | rfl, rfl⟩
    · show -(digitsVal ((d :: ds' ++ rest).takeWhile isDigit) : ℤ) = _
      rw [htw]
    · rw [List.nil_append]
      unfold scanSigned
      split
      · rename_i h; exact absurd (List.cons.inj h).1 hdd.2.2.1
      · rename_i h; exact absurd (List.cons.inj h).1 hdd.2.1
      · rw [htw]
    · show (digitsVal ((d :: ds' ++ rest).takeWhile isDigit) : ℤ) = _
      rw [htw]

theorem scanDigits_spec (ip point fp R : List UInt8) (hip : ∀ c ∈ ip ++ fp, isDigit c = true)
    (hpoint : point = [46] ∨ point = [] ∧ fp = []) (hR : ∀ c, R.head? = some c → isDigit c = false ∧ c ≠ 46) :
    scanDigits isDigit (ip ++ (point ++ (fp ++ R))) = (ip, fp, R) := by
  have h46 : isDigit 46 = false := by decide
  rcases hpoint with rfl | ⟨rfl, rfl⟩
  · have h1 : (ip ++ ([46] ++ (fp ++ R))).takeWhile isDigit = ip := takeWhile_front _ _ _ (fun c hc => hip c (by simp [hc]))
      (by intro x hx; simp at hx; rw [← hx]; exact h46)
    have h2 : (ip ++ ([46] ++ (fp ++ R))).dropWhile isDigit = 46 :: (fp ++ R) := dropWhile_front _ _ _
      (fun c hc => hip c (by simp [hc])) (by intro x hx; simp at hx; rw [← hx]; exact h46)
    have h3 : (fp ++ R).takeWhile isDigit = fp := takeWhile_front _ _ _ (fun c hc => hip c (by simp [hc])) fun c hc => (hR c hc).1
    have h4 : (fp ++ R).dropWhile isDigit = R := dropWhile_front _ _ _ (fun c hc => hip c (by simp [hc])) fun c hc => (hR c hc).1
    unfold scanDigits
    rw [h2, h1]
    simp only [h3, h4]
  · rw [List.nil_append, List.nil_append]
    have h1 : (ip ++ R).takeWhile isDigit = ip := takeWhile_front _ _ _ (fun c hc => hip c (by simp [hc])) fun c hc => (hR c hc).1
    have h2 : (ip ++ R).dropWhile isDigit = R := dropWhile_front _ _ _ (fun c hc => hip c (by simp [hc])) fun c hc => (hR c hc).1
    unfold scanDigits
    rw [h2, h1]
    split
    · exact absurd rfl (hR _ rfl).2
    · rfl

/-- What is scanned from a text that denotes a number. -/
theorem scan_numeral {s : List UInt8} {neg : Bool} {q : ℚ} (h : Numeral s neg q) :
    s ≠ [78, 97, 78] ∧ ∃ n d : Nat, scanFloat (cString s) = .number neg n d ∧ 0 < d ∧
      q = (if neg then -1 else 1) * ((n : ℚ) / d) := by
  obtain ⟨ws, sign, ip, point, fp, expo, rest, e, rfl, hws, hsign, hdig, hne, hpoint, hexpo, hrest, rfl⟩ := h.parts
  -- the rest of the C string
  have hrest' : ∀ c, (cString rest).head? = some c → isDigit c = false ∧ c ≠ 46 ∧ c ≠ 101 ∧ c ≠ 69 ∧ c ≠ 120 ∧ c ≠ 88 := by
    intro c hc
    apply hrest
    cases rest with
    | nil => simp [cString] at hc
    | cons r rest =>
      unfold cString at hc
      rw [List.takeWhile_cons] at hc
      split at hc
      · simpa using hc
      · simp at hc
  have hc : cString (ws ++ sign ++ ip ++ point ++ fp ++ expo ++ rest) =
      ws ++ sign ++ ip ++ point ++ fp ++ expo ++ cString rest := by
    unfold cString
    rw [List.takeWhile_append_of_pos]
    intro c hc
    simp only [List.mem_append] at hc
    have hsp : ∀ c, isSpace c = true → c ≠ 0 := byte_all (by decide +kernel)
    have hd0 : isDigit c = true → c ≠ 0 := fun h => (digit_byte c h).2.2.2.2.1
    have : c ≠ 0 := by
      rcases hc with ((((hc | hc) | hc) | hc) | hc) | hc
      · exact hsp c (hws c hc)
      · rcases hsign with ⟨_, rfl⟩ | ⟨_, rfl | rfl⟩
        · simp at hc; rw [hc]; decide
        · simp at hc
        · simp at hc; rw [hc]; decide
      · exact hd0 (hdig c (by simp [hc]))
      · rcases hpoint with rfl | ⟨rfl, _⟩
        · simp at hc; rw [hc]; decide
        · simp at hc
      · exact hd0 (hdig c (by simp [hc]))
      · rcases hexpo with ⟨rfl, _⟩ | ⟨letter, esign, ds, rfl, hl, hd, _, hs⟩
        · simp at hc
        · simp only [List.mem_cons, List.mem_append] at hc
          rcases hc with hc | hc | hc
          · rw [hc]
            rcases hl with rfl | rfl <;> decide
          · rcases hs with ⟨rfl, _⟩ | ⟨rfl | rfl, _⟩
            · simp at hc; rw [hc]; decide
            · simp at hc
            · simp at hc; rw [hc]; decide
          · exact hd0 (hd c hc)
    simpa using this
  -- the first characters of the number
  generalize hB : ip ++ (point ++ (fp ++ (expo ++ cString rest))) = B
  have hRest : ∀ c, (expo ++ cString rest).head? = some c → isDigit c = false ∧ c ≠ 46 ∧ lowerByte c ≠ 120 := by
    intro c hc
    rcases hexpo with ⟨rfl, _⟩ | ⟨letter, esign, ds, rfl, hl, _⟩
    · obtain ⟨h1, h2, _, _, h5, h6⟩ := hrest' c (by simpa using hc)
      refine ⟨h1, h2, ?_⟩
      rw [Ne, lower_x]
      rintro (h | h)
      · exact h5 h
      · exact h6 h
    · simp at hc
      subst hc
      rcases hl with rfl | rfl <;> decide
  have hx : ∀ c, (point ++ (fp ++ (expo ++ cString rest))).head? = some c → lowerByte c ≠ 120 := by
    intro c hc
    rcases hpoint with rfl | ⟨rfl, rfl⟩
    · simp at hc; subst hc; decide
    · exact (hRest c (by simpa using hc)).2.2
  have hfirst : ∃ c B', B = c :: B' ∧ isSpace c = false ∧ c ≠ 45 ∧ c ≠ 43 ∧ lowerByte c ≠ 105 ∧ lowerByte c ≠ 110 ∧ c ≠ 78 ∧
      (lowerByte c = 48 → ∀ x, B'.head? = some x → lowerByte x ≠ 120) := by
    cases ip with
    | nil =>
      rcases hpoint with rfl | ⟨rfl, rfl⟩
      · refine ⟨46, fp ++ (expo ++ cString rest), hB.symm, by decide, by decide, by decide, by decide, by decide, by decide, ?_⟩
        intro h
        exact absurd h (by decide)
      · simp at hne
    | cons c ip' =>
      obtain ⟨h1, h2, h3, h4, h5, h6, h7, h8, h9, h10⟩ := digit_byte c (hdig c (by simp))
      refine ⟨c, ip' ++ (point ++ (fp ++ (expo ++ cString rest))), hB.symm, h1, h3, h2, h6, h7, h9, ?_⟩
      intro _ x hx'
      cases ip' with
      | nil => exact hx x (by simpa using hx')
      | cons c' ip' =>
        simp at hx'
        subst hx'
        exact (digit_byte c' (hdig c' (by simp))).2.2.2.2.2.2.2.1
  have hU : scanUnsigned neg B = scaled neg (digitsVal (ip ++ fp)) 10 (e - fp.length) := by
    obtain ⟨c, B', rfl, _, _, _, h105, h110, _, h48⟩ := hfirst
    unfold scanUnsigned
    rw [if_neg (by simp only [List.take_succ_cons, List.map_cons, List.cons.injEq, not_and]; intro h; exact absurd h h105),
      if_neg (by simp only [List.take_succ_cons, List.map_cons, List.cons.injEq, not_and]; intro h; exact absurd h h110),
      if_neg (by
        intro h
        cases B' with
        | nil => simp at h
        | cons x B' =>
          simp only [List.take_succ_cons, List.take_zero, List.map_cons, List.map_nil, List.cons.injEq, and_true] at h
          exact h48 h.1 x rfl h.2)]
    rw [← hB]
    unfold scanDecimal
    rw [scanDigits_spec ip point fp _ hdig hpoint fun c hc => ⟨(hRest c hc).1, (hRest c hc).2.1⟩]
    simp only
    rw [if_neg hne, scanExponent_spec expo _ e hexpo fun c hc => ⟨(hrest' c hc).1, (hrest' c hc).2.2.1, (hrest' c hc).2.2.2.1⟩]
  have hS : scanFloat (cString (ws ++ sign ++ ip ++ point ++ fp ++ expo ++ rest)) = scanUnsigned neg B := by
    rw [hc]
    have : ws ++ sign ++ ip ++ point ++ fp ++ expo ++ cString rest = ws ++ (sign ++ B) := by
      rw [← hB]
      simp only [List.append_assoc]
    rw [this]
    obtain ⟨c, B', rfl, hsp, h45, h43, _⟩ := hfirst
    unfold scanFloat
    have hspace45 : isSpace 45 = false := by decide
    have hspace43 : isSpace 43 = false := by decide
    rw [dropWhile_front _ _ _ hws (by
      intro x hx
      rcases hsign with ⟨_, rfl⟩ | ⟨_, rfl | rfl⟩
      · simp at hx; rw [← hx]; exact hspace45
      · simp at hx; rw [← hx]; exact hsp
      · simp at hx; rw [← hx]; exact hspace43)]
    rcases hsign with ⟨rfl, rfl⟩ | ⟨rfl, rfl | rfl⟩
    · rfl
    · rw [List.nil_append]
      split
      · rename_i h; exact absurd (List.cons.inj h).1 h45
      · rename_i h; exact absurd (List.cons.inj h).1 h43
      · rfl
    · rfl
  constructor
  · intro hN
    obtain ⟨c, B', hB', hsp, h45, h43, _, _, h78, _⟩ := hfirst
    have h1 : cString (ws ++ sign ++ ip ++ point ++ fp ++ expo ++ rest) = [78, 97, 78] := by rw [hN]; decide
    rw [hc] at h1
    have h2 : ws ++ sign ++ ip ++ point ++ fp ++ expo ++ cString rest = ws ++ (sign ++ B) := by
      rw [← hB]
      simp only [List.append_assoc]
    rw [h2, hB'] at h1
    cases ws with
    | cons w ws =>
      rw [List.cons_append, List.cons.injEq] at h1
      have := hws w (by simp)
      rw [h1.1] at this
      exact absurd this (by decide)
    | nil =>
      rcases hsign with ⟨_, rfl⟩ | ⟨_, rfl | rfl⟩
      · simp at h1
      · simp at h1; exact h78 h1.1
      · simp at h1
  · rw [hS, hU]
    unfold scaled
    refine ⟨_, _, rfl, Nat.pow_pos (by norm_num), ?_⟩
    have ha : (digitsVal ip : ℚ) + (digitsVal fp : ℚ) / 10 ^ fp.length = (digitsVal (ip ++ fp) : ℚ) / 10 ^ fp.length := by
      rw [digitsVal_append]
      push_cast
      field_simp
    rw [ha, mul_assoc]
    congr 1
    have hz : ∀ z : ℤ, (10 : ℚ) ^ z = 10 ^ z.toNat / 10 ^ (-z).toNat := by
      intro z
      rcases le_total 0 z with h | h
      · obtain ⟨n, rfl⟩ := Int.eq_ofNat_of_zero_le h
        simp
      · obtain ⟨n, hn⟩ := Int.eq_ofNat_of_zero_le (show 0 ≤ -z by omega)
        have : z = -(n : ℤ) := by omega
        subst this
        simp
    push_cast
    have h1 := hz (e - fp.length)
    rw [zpow_sub₀ (by norm_num), zpow_natCast] at h1
    rw [mul_div_assoc, ← h1]
    ring

/-! ### Words, and texts without a number -/

theorem lower_inf (a b c : UInt8) : [a, b, c].map lowerByte = [105, 110, 102] ↔ SpellsInf [a, b, c] := by
  have h1 : ∀ c, lowerByte c = 105 ↔ c = 105 ∨ c = 73 := byte_all (by decide +kernel)
  have h2 : ∀ c, lowerByte c = 110 ↔ c = 110 ∨ c = 78 := byte_all (by decide +kernel)
  have h3 : ∀ c, lowerByte c = 102 ↔ c = 102 ∨ c = 70 := byte_all (by decide +kernel)
  simp only [List.map_cons, List.map_nil, List.cons.injEq, and_true, h1, h2, h3]
  constructor
  · intro h
    exact ⟨a, b, c, rfl, h⟩
  · rintro ⟨i, n, f, he, h⟩
    simp only [List.cons.injEq, and_true] at he
    obtain ⟨rfl, rfl, rfl⟩ := he
    exact h

theorem lower_nan (a b c : UInt8) : [a, b, c].map lowerByte = [110, 97, 110] ↔ SpellsNaN [a, b, c] := by
  have h1 : ∀ c, lowerByte c = 97 ↔ c = 97 ∨ c = 65 := byte_all (by decide +kernel)
  have h2 : ∀ c, lowerByte c = 110 ↔ c = 110 ∨ c = 78 := byte_all (by decide +kernel)
  simp only [List.map_cons, List.map_nil, List.cons.injEq, and_true, h1, h2]
  constructor
  · intro h
    exact ⟨a, b, c, rfl, h⟩
  · rintro ⟨i, n, f, he, h⟩
    simp only [List.cons.injEq, and_true] at he
    obtain ⟨rfl, rfl, rfl⟩ := he
    exact h

/-- What follows white space and sign. -/
theorem scan_after {s : List UInt8} {neg : Bool} {c : UInt8} {body : List UInt8} (h : After s neg (c :: body)) (h0 : c ≠ 0)
    (h1 : isSpace c = false) (h2 : c ≠ 43) (h3 : c ≠ 45) :
    scanFloat (cString s) = scanUnsigned neg (c :: cString body) := by
  obtain ⟨ws, sign, rfl, hws, hsign⟩ := h
  have hsp : ∀ c, isSpace c = true → c ≠ 0 := byte_all (by decide +kernel)
  have hs0 : ∀ x ∈ ws ++ sign ++ [c], x ≠ 0 := by
    intro x hx
    simp only [List.mem_append, List.mem_singleton] at hx
    rcases hx with (hx | hx) | rfl
    · exact hsp x (hws x hx)
    · rcases hsign with ⟨_, rfl⟩ | ⟨_, rfl | rfl⟩
      · simp at hx; rw [hx]; decide
      · simp at hx
      · simp at hx; rw [hx]; decide
    · exact h0
  have hc : cString (ws ++ sign ++ c :: body) = ws ++ (sign ++ c :: cString body) := by
    have : ws ++ sign ++ c :: body = (ws ++ sign ++ [c]) ++ body := by simp
    rw [this]
    unfold cString
    rw [List.takeWhile_append_of_pos (fun x hx => by simpa using hs0 x hx)]
    simp
  rw [hc]
  unfold scanFloat
  rw [dropWhile_front _ _ _ hws (by
    intro x hx
    rcases hsign with ⟨_, rfl⟩ | ⟨_, rfl | rfl⟩
    · simp at hx; rw [← hx]; decide
    · simp at hx; rw [← hx]; exact h1
    · simp at hx; rw [← hx]; decide)]
  rcases hsign with ⟨rfl, rfl⟩ | ⟨rfl, rfl | rfl⟩
  · rfl
  · rw [List.nil_append]
    split
    · rename_i h; exact absurd (List.cons.inj h).1 h3
    · rename_i h; exact absurd (List.cons.inj h).1 h2
    · rfl
  · rfl

theorem cString_three {b c : UInt8} (rest : List UInt8) (hb : b ≠ 0) (hc : c ≠ 0) :
    cString (b :: c :: rest) = b :: c :: cString rest := by
  unfold cString
  rw [List.takeWhile_cons, if_pos (by simpa using hb), List.takeWhile_cons, if_pos (by simpa using hc)]

theorem scan_inf {s w rest : List UInt8} {neg : Bool} (h : After s neg (w ++ rest)) (hw : SpellsInf w) :
    scanFloat (cString s) = .infinity neg := by
  obtain ⟨i, n, f, rfl, hi, hn, hf⟩ := id hw
  rw [scan_after h (by rcases hi with rfl | rfl <;> decide) (by rcases hi with rfl | rfl <;> decide)
    (by rcases hi with rfl | rfl <;> decide) (by rcases hi with rfl | rfl <;> decide)]
  show scanUnsigned neg (i :: cString (n :: f :: rest)) = _
  rw [cString_three rest (by rcases hn with rfl | rfl <;> decide) (by rcases hf with rfl | rfl <;> decide)]
  unfold scanUnsigned
  rw [if_pos]
  simp only [List.take_succ_cons, List.take_zero]
  exact (lower_inf _ _ _).2 hw

theorem scan_nan {s w rest : List UInt8} {neg : Bool} (h : After s neg (w ++ rest)) (hw : SpellsNaN w) :
    scanFloat (cString s) = .nan neg := by
  obtain ⟨i, n, f, rfl, hi, hn, hf⟩ := id hw
  rw [scan_after h (by rcases hi with rfl | rfl <;> decide) (by rcases hi with rfl | rfl <;> decide)
    (by rcases hi with rfl | rfl <;> decide) (by rcases hi with rfl | rfl <;> decide)]
  show scanUnsigned neg (i :: cString (n :: f :: rest)) = _
  rw [cString_three rest (by rcases hn with rfl | rfl <;> decide) (by rcases hf with rfl | rfl <;> decide)]
  unfold scanUnsigned
  rw [if_neg (by rcases hi with rfl | rfl <;> simp [lowerByte]), if_pos (show ((i :: n :: f :: cString rest).take 3).map lowerByte =
    [110, 97, 110] from (lower_nan i n f).2 hw)]

/-- Nothing is scanned exactly if no number starts. -/
theorem decimal_nothing (neg : Bool) (s : List UInt8) : scanDecimal neg s = .nothing ↔
    ¬ ((∃ d rest, s = d :: rest ∧ isDigit d = true) ∨ ∃ d rest, s = 46 :: d :: rest ∧ isDigit d = true) := by
  have h46 : isDigit 46 = false := by decide
  unfold scanDecimal
  cases s with
  | nil => simp [scanDigits]
  | cons c s =>
    by_cases hc : isDigit c = true
    · have : (scanDigits isDigit (c :: s)).1 ≠ [] := by
        unfold scanDigits
        split <;> simp [hc]
      simp only
      rw [if_neg (by intro h; exact this (List.append_eq_nil_iff.1 h).1)]
      constructor
      · intro h
        simp [scaled] at h
      · intro h
        exact absurd (.inl ⟨c, s, rfl, hc⟩) h
    · simp only [Bool.not_eq_true] at hc
      by_cases h : c = 46
      · subst h
        have hd : scanDigits isDigit (46 :: s) = ([], s.takeWhile isDigit, s.dropWhile isDigit) := by
          unfold scanDigits
          simp [h46]
        rw [hd]
        cases s with
        | nil => simp [h46]
        | cons d s =>
          by_cases hd : isDigit d = true
          · simp [hd, scaled]
          · simp only [Bool.not_eq_true] at hd
            simp [hd, h46]
      · have hd : scanDigits isDigit (c :: s) = ([], [], c :: s) := by
          unfold scanDigits
          rw [List.dropWhile_cons, hc, List.takeWhile_cons, hc]
          simp only [Bool.false_eq_true, if_false]
          split
          · rename_i h'
            exact absurd (List.cons.inj h').1 h
          · rfl
        rw [hd]
        simp [hc, h]

theorem spells_take {s : List UInt8} {w : List UInt8} (hw : w.length = 3) (h : (s.take 3).map lowerByte = w) :
    ∃ a b c rest, s = a :: b :: c :: rest := by
  match s, h with
  | [], h => simp at h; subst h; simp at hw
  | [_], h => simp at h; subst h; simp at hw
  | [_, _], h => simp at h; subst h; simp at hw
  | a :: b :: c :: rest, _ => exact ⟨a, b, c, rest, rfl⟩

theorem unsigned_nothing (neg : Bool) (s : List UInt8) : scanUnsigned neg s = .nothing ↔
    ¬ ((∃ d rest, s = d :: rest ∧ isDigit d = true) ∨ (∃ d rest, s = 46 :: d :: rest ∧ isDigit d = true) ∨
      ∃ w rest, s = w ++ rest ∧ (SpellsInf w ∨ SpellsNaN w)) := by
  unfold scanUnsigned
  split_ifs with h1 h2 h3
  · obtain ⟨a, b, c, rest, rfl⟩ := spells_take rfl h1
    constructor
    · intro h; simp at h
    · intro h
      exact absurd (.inr (.inr ⟨[a, b, c], rest, rfl, .inl ((lower_inf a b c).1 (by simpa using h1))⟩)) h
  · obtain ⟨a, b, c, rest, rfl⟩ := spells_take rfl h2
    constructor
    · intro h; simp at h
    · intro h
      exact absurd (.inr (.inr ⟨[a, b, c], rest, rfl, .inr ((lower_nan a b c).1 (by simpa using h2))⟩)) h
  · have h48 : ∀ c, lowerByte c = 48 → isDigit c = true := byte_all (by decide +kernel)
    cases s with
    | nil => simp at h3
    | cons c s =>
      simp only [List.take_succ_cons, List.map_cons, List.cons.injEq] at h3
      have hc := h48 c h3.1
      have hn := (decimal_nothing neg (c :: s)).not.2 (by
        rw [not_not]
        exact .inl ⟨c, s, rfl, hc⟩)
      constructor
      · intro h
        unfold scanHex at h
        simp only at h
        split_ifs at h
        · exact absurd (by simpa using h) hn
        · simp [scaled] at h
      · intro h
        exact absurd (.inl ⟨c, s, rfl, hc⟩) h
  · rw [decimal_nothing]
    apply not_congr
    constructor
    · rintro (h | h)
      · exact .inl h
      · exact .inr (.inl h)
    · rintro (h | h | ⟨w, rest, rfl, hw⟩)
      · exact .inl h
      · exact .inr h
      · exfalso
        rcases hw with hw | hw
        · obtain ⟨i, n, f, rfl, _⟩ := id hw
          exact h1 (by simpa using (lower_inf _ _ _).2 hw)
        · obtain ⟨i, n, f, rfl, _⟩ := id hw
          exact h2 (by simpa using (lower_nan _ _ _).2 hw)

theorem starts_cString (s : List UInt8) : StartsNumber (cString s) ↔ StartsNumber s := by
  have hsp : ∀ c, isSpace c = true → c ≠ 0 := byte_all (by decide +kernel)
  have hdg : ∀ c, isDigit c = true → c ≠ 0 := fun c h => (digit_byte c h).2.2.2.2.1
  have hs : s = cString s ++ s.dropWhile (· ≠ 0) := (List.takeWhile_append_dropWhile (p := fun x : UInt8 => decide (x ≠ 0)) (l := s)).symm
  have hcat : ∀ a b : List UInt8, (∀ c ∈ a, c ≠ 0) → cString (a ++ b) = a ++ cString b := by
    intro a b ha
    unfold cString
    exact List.takeWhile_append_of_pos fun c hc => by simpa using ha c hc
  constructor
  · rintro ⟨neg, body, ⟨ws, sign, he, hws, hsign⟩, hb⟩
    refine ⟨neg, body ++ s.dropWhile (· ≠ 0), ⟨ws, sign, ?_, hws, hsign⟩, ?_⟩
    · rw [← List.append_assoc, ← he]
      exact hs
    · rcases hb with ⟨d, rest, rfl, hd⟩ | ⟨d, rest, rfl, hd⟩ | ⟨w, rest, rfl, hw⟩
      · exact .inl ⟨d, rest ++ s.dropWhile (· ≠ 0), rfl, hd⟩
      · exact .inr (.inl ⟨d, rest ++ s.dropWhile (· ≠ 0), rfl, hd⟩)
      · exact .inr (.inr ⟨w, rest ++ s.dropWhile (· ≠ 0), by rw [List.append_assoc], hw⟩)
  · rintro ⟨neg, body, ⟨ws, sign, rfl, hws, hsign⟩, hb⟩
    have h0 : ∀ c ∈ ws ++ sign, c ≠ 0 := by
      intro x hx
      rcases List.mem_append.1 hx with hx | hx
      · exact hsp x (hws x hx)
      · rcases hsign with ⟨_, rfl⟩ | ⟨_, rfl | rfl⟩
        · simp at hx; rw [hx]; decide
        · simp at hx
        · simp at hx; rw [hx]; decide
    refine ⟨neg, cString body, ⟨ws, sign, hcat _ _ h0, hws, hsign⟩, ?_⟩
    rcases hb with ⟨d, rest, rfl, hd⟩ | ⟨d, rest, rfl, hd⟩ | ⟨w, rest, rfl, hw⟩
    · refine .inl ⟨d, cString rest, ?_, hd⟩
      exact hcat [d] rest (by intro c hc; simp at hc; rw [hc]; exact hdg d hd)
    · refine .inr (.inl ⟨d, cString rest, ?_, hd⟩)
      exact hcat [46, d] rest (by
        intro c hc
        simp at hc
        rcases hc with rfl | rfl
        · decide
        · exact hdg c hd)
    · refine .inr (.inr ⟨w, cString rest, hcat w rest ?_, hw⟩)
      intro x hx
      rcases hw with ⟨a, b, c, rfl, h1, h2, h3⟩ | ⟨a, b, c, rfl, h1, h2, h3⟩ <;>
      · simp at hx
        rcases hx with rfl | rfl | rfl
        · rcases h1 with rfl | rfl <;> decide
        · rcases h2 with rfl | rfl <;> decide
        · rcases h3 with rfl | rfl <;> decide

theorem dropWhile_head {A : Type} (p : A → Bool) (l : List A) (x : A) (h : (l.dropWhile p).head? = some x) : p x = false := by
  induction l with
  | nil => simp at h
  | cons a l ih =>
    rw [List.dropWhile_cons] at h
    split at h
    · exact ih h
    · rename_i hp
      simp at h
      subst h
      simpa using hp

theorem takeWhile_all {A : Type} (p : A → Bool) (l : List A) : ∀ x ∈ l.takeWhile p, p x = true := by
  induction l with
  | nil => simp
  | cons a l ih =>
    rw [List.takeWhile_cons]
    split
    · rename_i hp
      intro x hx
      rcases List.mem_cons.1 hx with rfl | hx
      · exact hp
      · exact ih x hx
    · simp

/-- The sign and what follows, once white space is gone, are determined. -/
theorem scan_nothing (s : List UInt8) : scanFloat s = .nothing ↔ ¬ StartsNumber s := by
  have hs : s = s.takeWhile isSpace ++ s.dropWhile isSpace := (List.takeWhile_append_dropWhile).symm
  have hhead := dropWhile_head isSpace s
  have hall := takeWhile_all isSpace s
  have hD : ∀ ws t : List UInt8, (∀ c ∈ ws, isSpace c = true) → (∀ x, t.head? = some x → isSpace x = false) → s = ws ++ t →
      s.dropWhile isSpace = t := by
    intro ws t h1 h2 h3
    rw [h3]
    exact dropWhile_front _ _ _ h1 h2
  have main : ∀ neg body, (s.dropWhile isSpace = (if neg then 45 else 43) :: body ∨
      neg = false ∧ s.dropWhile isSpace = body ∧ body.head? ≠ some 43 ∧ body.head? ≠ some 45) →
      (StartsNumber s ↔ ((∃ d rest, body = d :: rest ∧ isDigit d = true) ∨ (∃ d rest, body = 46 :: d :: rest ∧ isDigit d = true) ∨
        ∃ w rest, body = w ++ rest ∧ (SpellsInf w ∨ SpellsNaN w))) := by
    intro neg body hbody
    constructor
    · rintro ⟨neg', body', ⟨ws, sign, he, hws, hsign⟩, hb⟩
      have hfirst : ∃ c t, body' = c :: t ∧ isSpace c = false ∧ c ≠ 43 ∧ c ≠ 45 := by
        rcases hb with ⟨d, rest, rfl, hd⟩ | ⟨d, rest, rfl, hd⟩ | ⟨w, rest, rfl, hw⟩
        · obtain ⟨h1, h2, h3, _⟩ := digit_byte d hd
          exact ⟨d, rest, rfl, h1, h2, h3⟩
        · exact ⟨46, d :: rest, rfl, by decide, by decide, by decide⟩
        · rcases hw with ⟨a, b, c, rfl, h1, h2, h3⟩ | ⟨a, b, c, rfl, h1, h2, h3⟩ <;>
          · refine ⟨a, b :: c :: rest, rfl, ?_⟩
            rcases h1 with rfl | rfl <;> decide
      obtain ⟨c, t, rfl, hc1, hc2, hc3⟩ := hfirst
      have hd := hD ws (sign ++ c :: t) hws (by
        intro x hx
        rcases hsign with ⟨_, rfl⟩ | ⟨_, rfl | rfl⟩
        · simp at hx; rw [← hx]; decide
        · simp at hx; rw [← hx]; exact hc1
        · simp at hx; rw [← hx]; decide) (by rw [he, List.append_assoc])
      have hbe : body = c :: t := by
        rcases hbody with hbody | ⟨rfl, hbody, h43, h45⟩
        · rw [hd] at hbody
          rcases hsign with ⟨_, rfl⟩ | ⟨_, rfl | rfl⟩
          · exact (List.cons.inj hbody).2.symm
          · have := (List.cons.inj hbody).1
            cases neg
            · exact absurd this hc2
            · exact absurd this hc3
          · exact (List.cons.inj hbody).2.symm
        · rw [hd] at hbody
          rcases hsign with ⟨_, rfl⟩ | ⟨_, rfl | rfl⟩
          · rw [← hbody] at h45; simp at h45
          · exact hbody.symm
          · rw [← hbody] at h43; simp at h43
      rw [hbe]
      exact hb
    · intro hb
      rcases hbody with hbody | ⟨rfl, hbody, _⟩
      · refine ⟨neg, body, ⟨s.takeWhile isSpace, [if neg then 45 else 43], ?_, hall, ?_⟩, hb⟩
        · rw [List.append_assoc, List.singleton_append, ← hbody]
          exact hs
        · cases neg <;> simp
      · refine ⟨false, body, ⟨s.takeWhile isSpace, [], ?_, hall, .inr ⟨rfl, .inl rfl⟩⟩, hb⟩
        rw [List.append_nil, ← hbody]
        exact hs
  unfold scanFloat
  split
  · rename_i cs hcs
    rw [unsigned_nothing, main true cs (.inl hcs)]
  · rename_i cs hcs
    rw [unsigned_nothing, main false cs (.inl hcs)]
  · rename_i h45 h43
    rw [unsigned_nothing, main false _ (.inr ⟨rfl, rfl, ?_, ?_⟩)]
    · intro h
      obtain ⟨t, ht⟩ : ∃ t, s.dropWhile isSpace = 43 :: t := by
        cases hl : s.dropWhile isSpace with
        | nil => rw [hl] at h; simp at h
        | cons a t => rw [hl] at h; simp at h; exact ⟨t, by rw [h]⟩
      exact h43 t ht
    · intro h
      obtain ⟨t, ht⟩ : ∃ t, s.dropWhile isSpace = 45 :: t := by
        cases hl : s.dropWhile isSpace with
        | nil => rw [hl] at h; simp at h
        | cons a t => rw [hl] at h; simp at h; exact ⟨t, by rw [h]⟩
      exact h45 t ht

/-! ### Formats and types -/

/-- The type `T` is the format `F`, and its conversions are those of the format. -/
structure Bridge (T : Type) [Binary T] [TextTraits T] (F : Fmt) (of : Nat → T) : Prop extends Shape T F of where
  toText : ∀ x : T, TextTraits.toText x = F.toText (Binary.bits x)
  fromText : ∀ s, (TextTraits.fromText s : Except Err T) = (F.fromText s).map of

theorem single_good : Fmt.Good single := ⟨by decide, by decide, by decide, by decide, by decide +kernel⟩
theorem double_good : Fmt.Good double := ⟨by decide, by decide, by decide, by decide, by decide +kernel⟩

theorem single_signBit : single.signBit = 2147483648 := by decide
theorem double_signBit : double.signBit = 9223372036854775808 := by decide

theorem bridge_float : Bridge F32 single (fun n => ⟨UInt32.ofNat n⟩) where
  good := single_good
  frac := rfl
  exp := rfl
  bits_lt x := by
    rw [single_signBit]
    exact x.bits.toNat_lt
  bits_of n h := by
    rw [single_signBit] at h
    exact UInt32.toNat_ofNat_of_lt' h
  of_bits x := by
    show (⟨UInt32.ofNat x.bits.toNat⟩ : F32) = x
    rw [UInt32.ofNat_toNat]
  toText _ := rfl
  fromText _ := rfl

theorem bridge_double : Bridge F64 double (fun n => ⟨UInt64.ofNat n⟩) where
  good := double_good
  frac := rfl
  exp := rfl
  bits_lt x := by
    rw [double_signBit]
    exact x.bits.toNat_lt
  bits_of n h := by
    rw [double_signBit] at h
    exact UInt64.toNat_ofNat_of_lt' h
  of_bits x := by
    show (⟨UInt64.ofNat x.bits.toNat⟩ : F64) = x
    rw [UInt64.ofNat_toNat]
  toText _ := rfl
  fromText _ := rfl

theorem sixDigits_eq (k : Nat) : sixDigits (k % 1000000) = [48 + UInt8.ofNat (k / 100000 % 10), 48 + UInt8.ofNat (k / 10000 % 10),
    48 + UInt8.ofNat (k / 1000 % 10), 48 + UInt8.ofNat (k / 100 % 10), 48 + UInt8.ofNat (k / 10 % 10),
    48 + UInt8.ofNat (k % 10)] := by
  unfold sixDigits digitByte
  rw [show k % 1000000 / 100000 % 10 = k / 100000 % 10 by omega, show k % 1000000 / 10000 % 10 = k / 10000 % 10 by omega,
    show k % 1000000 / 1000 % 10 = k / 1000 % 10 by omega, show k % 1000000 / 100 % 10 = k / 100 % 10 by omega,
    show k % 1000000 / 10 % 10 = k / 10 % 10 by omega, show k % 1000000 % 10 = k % 10 by omega]

theorem fixedText_eq (n d k : Nat) (h : roundEven (n * 1000000) d = k) :
    fixedText n d = natText (k / 1000000) ++ 46 :: sixDigits (k % 1000000) := by
  unfold fixedText
  rw [h]

section
variable {T : Type} [Binary T] [TextTraits T] {F : Fmt} {of : Nat → T}

namespace Bridge
variable (B : Bridge T F of)
include B

/-! ### Writing -/

theorem toText_finite {x : T} (h : Finite x) :
    TextTraits.toText x = sixDecimals (negative x) (F.millionths (pattern F x)) := by
  have h1 := (B.finite_iff x).1 h
  obtain ⟨k, hk⟩ : ∃ k, F.millionths (pattern F x) = k := ⟨_, rfl⟩
  rw [B.toText, hk]
  unfold Fmt.toText
  rw [B.negative_eq]
  rw [if_neg (show ¬ F.inf < Binary.bits x % F.signBit from not_lt.2 h1.le),
    if_neg (show ¬ Binary.bits x % F.signBit = F.inf from h1.ne)]
  unfold Fmt.millionths pattern at hk
  rw [fixedText_eq _ _ k hk, sixDigits_eq]
  unfold sixDecimals
  by_cases hs : F.signBit ≤ Binary.bits x
  · simp [hs]
  · simp [hs]

end Bridge

theorem sixDecimals_numeral (neg : Bool) (k : Nat) : Numeral (sixDecimals neg k) neg (signOf neg * ((k : ℚ) / 1000000)) := by
  obtain ⟨h1, h2, h3⟩ := natText_spec (k / 1000000)
  have hd : ∀ n, isDigit (48 + UInt8.ofNat (n % 10)) = true ∧ (48 + UInt8.ofNat (n % 10)).toNat - 48 = n % 10 := by
    intro n
    have : ∀ n < 10, isDigit (48 + UInt8.ofNat n) = true ∧ (48 + UInt8.ofNat n).toNat - 48 = n := by decide
    exact this (n % 10) (Nat.mod_lt _ (by norm_num))
  refine ⟨[], if neg then [45] else [], natText (k / 1000000), [46],
    [48 + UInt8.ofNat (k / 100000 % 10), 48 + UInt8.ofNat (k / 10000 % 10), 48 + UInt8.ofNat (k / 1000 % 10),
      48 + UInt8.ofNat (k / 100 % 10), 48 + UInt8.ofNat (k / 10 % 10), 48 + UInt8.ofNat (k % 10)],
    [], [], 0, by unfold sixDecimals; simp, by simp, ?_, ?_,
    by simp [h1], .inl rfl, .inl ⟨rfl, rfl⟩, by simp, ?_⟩
  · cases neg <;> simp
  · intro c hc
    rcases List.mem_append.1 hc with hc | hc
    · exact h2 c hc
    · simp only [List.mem_cons, List.not_mem_nil, or_false] at hc
      rcases hc with rfl | rfl | rfl | rfl | rfl | rfl <;> exact (hd _).1
  · have hfp : digitsVal [48 + UInt8.ofNat (k / 100000 % 10), 48 + UInt8.ofNat (k / 10000 % 10),
        48 + UInt8.ofNat (k / 1000 % 10), 48 + UInt8.ofNat (k / 100 % 10), 48 + UInt8.ofNat (k / 10 % 10),
        48 + UInt8.ofNat (k % 10)] = k % 1000000 := by
      unfold digitsVal
      simp only [List.foldl_cons, List.foldl_nil]
      rw [(hd _).2, (hd _).2, (hd _).2, (hd _).2, (hd _).2, (hd _).2]
      omega
    rw [hfp, h3, zpow_zero, mul_one]
    unfold signOf
    congr 1
    have : (k : ℚ) = ((1000000 * (k / 1000000) + k % 1000000 : Nat) : ℚ) := by rw [Nat.div_add_mod]
    rw [this]
    push_cast
    simp only [List.length_cons, List.length_nil]
    norm_num
    ring

theorem round_mono {k j : Nat} {x y : ℚ} (h : IsRound k x) (h' : IsRound j y) (hxy : x ≤ y) : k ≤ j := by
  by_contra hlt
  have l : (j : ℚ) + 1 ≤ k := by exact_mod_cast (by omega : j + 1 ≤ k)
  have h1 := abs_le.1 h.1
  have h2 := abs_le.1 h'.1
  have e : x = y := by linarith
  subst e
  exact absurd (h.unique h') (by omega)

namespace Bridge
variable (B : Bridge T F of)
include B

/-! ### Reading -/

theorem fromText_number {s : List UInt8} {neg : Bool} {q : ℚ} (h : Numeral s neg q) :
    ∃ n d : Nat, 0 < d ∧ q = signOf neg * ((n : ℚ) / d) ∧
      (TextTraits.fromText s : Except Err T) = (F.convert neg n d).map of := by
  obtain ⟨h1, n, d, h2, h3, h4⟩ := scan_numeral h
  refine ⟨n, d, h3, h4, ?_⟩
  rw [B.fromText]
  unfold Fmt.fromText
  rw [if_neg h1, h2]

theorem tooLarge_eq : tooLarge T * 2 ^ F.scale = F.limit := by
  obtain ⟨c, hc, hs, he⟩ := B.bias_scale
  have hP : 1 ≤ 2 ^ F.frac := Nat.one_le_two_pow
  unfold tooLarge Fmt.limit
  rw [B.frac, hc, hs, he, Nat.cast_mul, Nat.cast_sub (by omega), pow_add]
  rw [show ((c + 1 : Nat) : ℤ) - (F.frac : ℤ) - 1 = (c : ℤ) - F.frac by push_cast; ring, zpow_sub₀ (by norm_num), zpow_natCast,
    zpow_natCast, Nat.mul_comm 2 c, pow_mul]
  push_cast
  field_simp

theorem tooSmall_eq : tooSmall T * 2 ^ F.scale = (4 * 2 ^ F.frac - 1) / 4 := by
  obtain ⟨c, hc, hs, he⟩ := B.bias_scale
  unfold tooSmall
  rw [B.frac, hc, hs, pow_add]
  rw [show (1 : ℤ) - ((c + 1 : Nat) : ℤ) - (F.frac : ℤ) - 2 = -((c + F.frac + 2 : Nat) : ℤ) by push_cast; ring, zpow_neg,
    zpow_natCast, pow_add, pow_add]
  field_simp
  ring

/-- Reading a text from which a fraction is scanned. -/
theorem read_fraction {s : List UInt8} {neg : Bool} {n d : Nat} (hd : 0 < d)
    (hf : (TextTraits.fromText s : Except Err T) = (F.convert neg n d).map of) :
    ((tooLarge T ≤ |signOf neg * ((n : ℚ) / d)| ∨ |signOf neg * ((n : ℚ) / d)| < tooSmall T ∧
        ∀ y : T, Finite y → value y ≠ signOf neg * ((n : ℚ) / d)) →
      (TextTraits.fromText s : Except Err T) = .error .outOfRange) ∧
    (¬ (tooLarge T ≤ |signOf neg * ((n : ℚ) / d)| ∨ |signOf neg * ((n : ℚ) / d)| < tooSmall T ∧
        ∀ y : T, Finite y → value y ≠ signOf neg * ((n : ℚ) / d)) →
      ∃ x : T, TextTraits.fromText s = .ok x ∧ IsNearest (signOf neg * ((n : ℚ) / d)) x ∧ negative x = neg) := by
  have hd' : (0 : ℚ) < d := by exact_mod_cast hd
  have hpos : (0 : ℚ) < 2 ^ F.scale := by positivity
  have ha : |signOf neg * ((n : ℚ) / d)| = (n : ℚ) / d := by
    rw [abs_mul]
    have : |signOf neg| = 1 := by cases neg <;> simp [signOf]
    rw [this, one_mul, abs_of_nonneg (by positivity)]
  have ht : (n : ℚ) / d * 2 ^ F.scale = (n : ℚ) * 2 ^ F.scale / d := by ring
  have hl : tooLarge T ≤ (n : ℚ) / d ↔ (F.limit : ℚ) ≤ (n : ℚ) * 2 ^ F.scale / d := by
    rw [← B.tooLarge_eq, ← ht, mul_le_mul_iff_left₀ hpos]
  have hs : (n : ℚ) / d < tooSmall T ↔ (n : ℚ) * 2 ^ F.scale / d < (4 * 2 ^ F.frac - 1) / 4 := by
    rw [← B.tooSmall_eq, ← ht, mul_lt_mul_iff_left₀ hpos]
  have hex : (∀ y : T, Finite y → value y ≠ signOf neg * ((n : ℚ) / d)) ↔
      ∀ m < F.inf, (F.mag m : ℚ) ≠ (n : ℚ) * 2 ^ F.scale / d := by
    constructor
    · intro hy m hm he
      obtain ⟨hp, hn⟩ := B.of_pattern neg (lt_trans hm (inf_lt_sign B.good))
      apply hy (of ((if neg then F.signBit else 0) + m))
      · rw [B.finite_iff, hp]; exact hm
      · rw [B.value_eq, hp, hn, he]
        congr 1
        field_simp
    · intro hm y hy he
      apply hm (pattern F y) ((B.finite_iff y).1 hy)
      have := congrArg abs he
      rw [ha, B.value_abs] at this
      rw [← ht, ← this]
      field_simp
  rw [ha, hf]
  constructor
  · intro h1
    rw [Fmt.convert_error B.good neg hd (by rwa [hl, hs, hex] at h1)]
    rfl
  · intro h1
    rw [hl, hs, hex] at h1
    have hn := F.nearest_spec (by have := B.good.frac; omega) n d hd
    have hfin : F.nearest n d < F.inf := by
      by_contra hge
      exact h1 (.inl ((hn.over_iff B.good).1 (by omega)))
    rw [Fmt.convert_ok B.good neg hd hn (fun h2 => h1 (.inl h2)) (fun h2 => h1 (.inr ⟨h2.1, fun m hm he => by
      apply h2.2
      have e : F.Near ((n : ℚ) * 2 ^ F.scale / d) m := by rw [← he]; exact Fmt.near_self m
      rw [hn.unique e, he]⟩))]
    refine ⟨_, rfl, ?_, (B.of_pattern neg (lt_trans hfin (inf_lt_sign B.good))).2⟩
    apply B.nearest_of neg (by positivity) _ hfin
    rw [ht]
    exact hn

/-- Reading a text that denotes a number. -/
theorem read {s : List UInt8} {neg : Bool} {q : ℚ} (h : Numeral s neg q) :
    ((tooLarge T ≤ |q| ∨ |q| < tooSmall T ∧ ∀ y : T, Finite y → value y ≠ q) →
      (TextTraits.fromText s : Except Err T) = .error .outOfRange) ∧
    (¬ (tooLarge T ≤ |q| ∨ |q| < tooSmall T ∧ ∀ y : T, Finite y → value y ≠ q) →
      ∃ x : T, TextTraits.fromText s = .ok x ∧ IsNearest q x ∧ negative x = neg) := by
  obtain ⟨n, d, hd, rfl, hf⟩ := B.fromText_number h
  exact B.read_fraction hd hf

/-- Reading a text with six decimals. -/
theorem read_six (neg : Bool) (k : Nat) (hk : F.nearest k 1000000 < F.inf) :
    (TextTraits.fromText (sixDecimals neg k) : Except Err T) =
      .ok (of ((if neg then F.signBit else 0) + F.nearest k 1000000)) := by
  obtain ⟨n, d, hd, hq, hf⟩ := B.fromText_number (sixDecimals_numeral neg k)
  have hd' : (0 : ℚ) < d := by exact_mod_cast hd
  have hs : signOf neg ≠ 0 := by cases neg <;> simp [signOf]
  have ht : (n : ℚ) * 2 ^ F.scale / d = (k : ℚ) * 2 ^ F.scale / 1000000 := by
    have := mul_left_cancel₀ hs hq
    rw [mul_comm, mul_div_assoc, ← this]
    ring
  have hn := Fmt.near_back B.good k
  rw [hf, Fmt.convert_ok B.good neg hd (r := F.nearest k 1000000)]
  · rfl
  · rw [ht]; exact hn
  · rw [ht]
    intro h
    have := (hn.over_iff B.good).2 h
    omega
  · rw [ht]
    rintro ⟨h1, h2⟩
    have h3 : (k : ℚ) * 2 ^ F.scale / 1000000 = (k : ℚ) * 2 ^ F.scale / ((1000000 : Nat) : ℚ) := by push_cast; rfl
    rw [h3] at h1 h2
    exact Fmt.not_tiny B.good k ⟨(Fmt.tiny_iff k 1000000 (by norm_num)).2 h1,
      fun h => h2 ((Fmt.exact_iff _ k 1000000 (by norm_num)).1 h)⟩

/-! ### There and back -/

/-- Reading the text of a finite number. -/
theorem back {x : T} (h : Finite x) : (TextTraits.fromText (TextTraits.toText x) : Except Err T) =
    .ok (of ((if negative x then F.signBit else 0) + F.nearest (F.millionths (pattern F x)) 1000000)) := by
  rw [B.toText_finite h]
  exact B.read_six _ _ (by
    have := Fmt.back_finite B.good ((B.finite_iff x).1 h)
    exact this)

theorem back_eq_iff {x : T} (h : Finite x) : TextTraits.fromText (TextTraits.toText x) = .ok x ↔
    F.nearest (F.millionths (pattern F x)) 1000000 = pattern F x := by
  rw [B.back h]
  have hfin := Fmt.back_finite B.good ((B.finite_iff x).1 h)
  generalize F.nearest (F.millionths (pattern F x)) 1000000 = r at hfin
  constructor
  · intro he
    have := congrArg (pattern F) (Except.ok.inj he)
    rwa [(B.of_pattern _ (lt_trans hfin (inf_lt_sign B.good))).1] at this
  · rintro rfl
    rw [← B.bits_eq, B.of_bits]

/-- Written is the multiple of a millionth that is nearest. -/
theorem text {x : T} (h : Finite x) : ∃ k : Nat, TextTraits.toText x = sixDecimals (negative x) k ∧
    abs ((k : ℚ) / 1000000 - abs (value x)) ≤ 1 / 2000000 ∧
    (abs ((k : ℚ) / 1000000 - abs (value x)) = 1 / 2000000 → k % 2 = 0) := by
  refine ⟨_, B.toText_finite h, ?_⟩
  have := F.millionths_spec (pattern F x)
  rw [B.value_abs]
  generalize F.millionths (pattern F x) = k at this
  generalize (F.mag (pattern F x) : ℚ) / 2 ^ F.scale = v at this
  have e : |(k : ℚ) / 1000000 - v| = |(k : ℚ) - v * 1000000| / 1000000 := by
    rw [show (k : ℚ) / 1000000 - v = ((k : ℚ) - v * 1000000) / 1000000 by ring, abs_div]
    norm_num
  rw [e]
  exact ⟨by linarith [this.1], fun h => this.2 (by linarith)⟩

/-- Numbers come back exactly if they are nearest to some number of millionths. -/
theorem exact_iff {x : T} (h : Finite x) : TextTraits.fromText (TextTraits.toText x) = .ok x ↔
    ∃ z : ℤ, IsNearest ((z : ℚ) / 1000000) x := by
  rw [B.back_eq_iff h]
  constructor
  · intro he
    have hn := Fmt.near_back B.good (F.millionths (pattern F x))
    have hfin := (B.finite_iff x).1 h
    rw [he] at hn
    generalize F.millionths (pattern F x) = k at hn
    have := B.nearest_of (negative x) (q := (k : ℚ) / 1000000) (by positivity) (m := pattern F x) (by
      rw [show (k : ℚ) / 1000000 * 2 ^ F.scale = (k : ℚ) * 2 ^ F.scale / 1000000 by ring]
      exact hn) hfin
    rw [← B.bits_eq, B.of_bits] at this
    cases hneg : negative x
    · rw [hneg] at this
      exact ⟨k, by simpa [signOf] using this⟩
    · rw [hneg] at this
      refine ⟨-k, ?_⟩
      have e : (((-(k : ℤ)) : ℤ) : ℚ) / 1000000 = signOf true * ((k : ℚ) / 1000000) := by
        simp only [signOf, if_true]
        push_cast
        ring
      rw [e]
      exact this
  · rintro ⟨z, hz⟩
    by_cases hmax : pattern F x < F.inf - 1
    · have hn := B.near_of hz hmax
      have e : |(z : ℚ) / 1000000| * 2 ^ F.scale = ((z.natAbs : Nat) : ℚ) * 2 ^ F.scale / 1000000 := by
        rw [abs_div, ← Int.cast_abs, ← Int.natCast_natAbs]
        norm_num
        ring
      rw [e] at hn
      exact Fmt.back_near B.good hn
    · apply Fmt.back_large B.good
      have hfin := (B.finite_iff x).1 h
      have hP : 0 < 2 ^ F.frac := Nat.pow_pos (by norm_num)
      have h8 := B.good.exp_pow
      have hl := B.good.large
      have : 2 ^ F.exp - 2 ≤ pattern F x / 2 ^ F.frac := by
        rw [Nat.le_div_iff_mul_le hP]
        have : F.inf = (2 ^ F.exp - 2) * 2 ^ F.frac + 2 ^ F.frac := by
          unfold Fmt.inf
          rw [← Nat.succ_mul]
          congr 1
          omega
        omega
      omega

theorem large {x : T} (h : Finite x) (hl : (2 : ℚ) ^ (F.frac - 19) ≤ |value x|) :
    TextTraits.fromText (TextTraits.toText x) = .ok x := by
  rw [B.back_eq_iff h]
  apply Fmt.back_large B.good
  apply Fmt.wide_of_le B.good
  rw [B.value_abs, le_div_iff₀ (by positivity)] at hl
  exact_mod_cast hl

theorem text_back (neg : Bool) {k : Nat} (hk : k < 2 ^ (F.frac - 19) * 1000000) :
    ∃ x : T, TextTraits.fromText (sixDecimals neg k) = .ok x ∧ TextTraits.toText x = sixDecimals neg k := by
  obtain ⟨h1, h2⟩ := Fmt.text_back B.good hk
  obtain ⟨hp, hn⟩ := B.of_pattern neg (lt_trans h2 (inf_lt_sign B.good))
  refine ⟨_, B.read_six neg k h2, ?_⟩
  rw [B.toText_finite (by rw [B.finite_iff, hp]; exact h2), hp, hn, h1]

theorem stable {x : T} (h : Finite x) : ∃ y : T, TextTraits.fromText (TextTraits.toText x) = .ok y ∧ Finite y ∧
    TextTraits.toText y = TextTraits.toText x := by
  have hfin := Fmt.back_finite B.good ((B.finite_iff x).1 h)
  obtain ⟨hp, hn⟩ := B.of_pattern (negative x) (lt_trans hfin (inf_lt_sign B.good))
  have hf : Finite (of ((if negative x then F.signBit else 0) + F.nearest (F.millionths (pattern F x)) 1000000)) := by
    rw [B.finite_iff, hp]; exact hfin
  refine ⟨_, B.back h, hf, ?_⟩
  rw [B.toText_finite h, B.toText_finite hf, hp, hn, Fmt.stable B.good]

theorem small {x : T} (h : Finite x) (hs : |value x| ≤ 1 / 2000000) : TextTraits.toText x = sixDecimals (negative x) 0 ∧
    ∃ y : T, TextTraits.fromText (TextTraits.toText x) = .ok y ∧ value y = 0 := by
  have h0 : F.millionths (pattern F x) = 0 := by
    refine (F.millionths_spec _).unique ?_
    rw [B.value_abs] at hs
    have hp : (0 : ℚ) ≤ (F.mag (pattern F x) : ℚ) / 2 ^ F.scale := by positivity
    generalize (F.mag (pattern F x) : ℚ) / 2 ^ F.scale = v at hs hp
    unfold IsRound
    rw [Nat.cast_zero, zero_sub, abs_neg, abs_of_nonneg (by linarith)]
    exact ⟨by linarith, fun _ => rfl⟩
  refine ⟨by rw [B.toText_finite h, h0], _, B.back h, ?_⟩
  rw [h0, Fmt.nearest_zero, B.value_eq]
  have := (B.of_pattern (negative x) (m := 0) (by have := inf_lt_sign B.good; omega)).1
  rw [this]
  simp [Fmt.mag]

theorem monotone {x y : T} (hx : Finite x) (hy : Finite y) (hxy : value x ≤ value y) :
    ∃ x' y' : T, TextTraits.fromText (TextTraits.toText x) = .ok x' ∧ TextTraits.fromText (TextTraits.toText y) = .ok y' ∧
      value x' ≤ value y' := by
  refine ⟨_, _, B.back hx, B.back hy, ?_⟩
  have hpos : (0 : ℚ) < 2 ^ F.scale := by positivity
  have hfx := Fmt.back_finite B.good ((B.finite_iff x).1 hx)
  have hfy := Fmt.back_finite B.good ((B.finite_iff y).1 hy)
  have key : ∀ m m', F.mag m ≤ F.mag m' →
      (F.mag (F.nearest (F.millionths m) 1000000) : ℚ) / 2 ^ F.scale ≤
        (F.mag (F.nearest (F.millionths m') 1000000) : ℚ) / 2 ^ F.scale := by
    intro m m' hm
    have hmQ : (F.mag m : ℚ) ≤ F.mag m' := by exact_mod_cast hm
    have h1 := round_mono (F.millionths_spec m) (F.millionths_spec m') (by
      have := div_le_div_of_nonneg_right hmQ hpos.le
      linarith)
    have h2 : ((F.millionths m : Nat) : ℚ) ≤ F.millionths m' := by exact_mod_cast h1
    have h3 := (Fmt.near_back B.good (F.millionths m)).mono (Fmt.near_back B.good (F.millionths m')) (by
      have := mul_le_mul_of_nonneg_right h2 hpos.le
      linarith)
    have h4 : (F.mag (F.nearest (F.millionths m) 1000000) : ℚ) ≤ F.mag (F.nearest (F.millionths m') 1000000) := by
      exact_mod_cast F.mag_mono.monotone h3
    exact div_le_div_of_nonneg_right h4 hpos.le
  obtain ⟨px, nx⟩ := B.of_pattern (negative x) (lt_trans hfx (inf_lt_sign B.good))
  obtain ⟨py, ny⟩ := B.of_pattern (negative y) (lt_trans hfy (inf_lt_sign B.good))
  rw [B.value_eq, B.value_eq (of _), px, nx, py, ny]
  rw [B.value_eq, B.value_eq y] at hxy
  have z0 : F.mag (F.nearest (F.millionths 0) 1000000) = 0 := by
    have : F.millionths 0 = 0 := by
      refine (F.millionths_spec 0).unique ?_
      unfold IsRound
      simp [Fmt.mag]
    rw [this, Fmt.nearest_zero]
    simp [Fmt.mag]
  have m0 : F.mag 0 = 0 := by simp [Fmt.mag]
  have nn : ∀ m, (0 : ℚ) ≤ (F.mag m : ℚ) / 2 ^ F.scale := fun m => by positivity
  cases hnx : negative x <;> cases hny : negative y <;>
    simp only [hnx, hny, signOf, Bool.false_eq_true, if_false, if_true, one_mul, neg_mul] at hxy ⊢
  · exact key _ _ (by exact_mod_cast (div_le_div_iff_of_pos_right hpos).1 hxy)
  · have a := nn (pattern F x)
    have b := nn (pattern F y)
    have hx0 : (F.mag (pattern F x) : ℚ) / 2 ^ F.scale ≤ (F.mag 0 : ℚ) / 2 ^ F.scale := by rw [m0]; simp; linarith
    have hy0 : (F.mag (pattern F y) : ℚ) / 2 ^ F.scale ≤ (F.mag 0 : ℚ) / 2 ^ F.scale := by rw [m0]; simp; linarith
    have hx1 := key _ 0 (by exact_mod_cast (div_le_div_iff_of_pos_right hpos).1 hx0)
    have hy1 := key _ 0 (by exact_mod_cast (div_le_div_iff_of_pos_right hpos).1 hy0)
    rw [z0] at hx1 hy1
    simp only [Nat.cast_zero, zero_div] at hx1 hy1
    linarith [nn (F.nearest (F.millionths (pattern F x)) 1000000)]
  · linarith [nn (F.nearest (F.millionths (pattern F x)) 1000000), nn (F.nearest (F.millionths (pattern F y)) 1000000)]
  · have : (F.mag (pattern F y) : ℚ) / 2 ^ F.scale ≤ (F.mag (pattern F x) : ℚ) / 2 ^ F.scale := by linarith
    have := key (pattern F y) (pattern F x) (by exact_mod_cast (div_le_div_iff_of_pos_right hpos).1 this)
    linarith

/-! ### Infinity and NaN -/

theorem inf_iff (x : T) : IsInf x ↔ pattern F x = F.inf := by
  unfold IsInf
  rw [B.exponent_eq, B.fraction_eq, B.exp]
  have hP : 0 < 2 ^ F.frac := Nat.pow_pos (by norm_num)
  unfold Fmt.inf
  constructor
  · rintro ⟨h1, h2⟩
    have := Nat.div_add_mod (pattern F x) (2 ^ F.frac)
    rw [h1, h2, Nat.add_zero, Nat.mul_comm] at this
    exact this.symm
  · intro h
    rw [h, Nat.mul_div_cancel _ hP, Nat.mul_mod_left]
    exact ⟨rfl, rfl⟩

theorem nan_iff (x : T) : IsNaN x ↔ F.inf < pattern F x := by
  have h1 := B.inf_iff x
  have h2 := B.finite_iff x
  unfold IsNaN
  unfold IsInf at h1
  unfold Finite at h2
  constructor
  · rintro ⟨h3, h4⟩
    have : ¬ pattern F x = F.inf := fun h => h4 (h1.2 h).2
    have : ¬ pattern F x < F.inf := fun h => (h2.2 h) h3
    omega
  · intro h
    have h3 : exponent x = 2 ^ Binary.exp T - 1 := by
      by_contra hc
      have := h2.1 hc
      omega
    exact ⟨h3, fun h4 => by have := h1.1 ⟨h3, h4⟩; omega⟩

theorem inf_back {x : T} (h : IsInf x) : TextTraits.toText x = (if negative x then [45] else []) ++ [105, 110, 102] ∧
    TextTraits.fromText (TextTraits.toText x) = .ok x := by
  have hp := (B.inf_iff x).1 h
  have h1 : TextTraits.toText x = (if negative x then [45] else []) ++ [105, 110, 102] := by
    rw [B.toText, B.negative_eq]
    unfold Fmt.toText
    rw [if_neg (show ¬ F.inf < Binary.bits x % F.signBit from not_lt.2 hp.le),
      if_pos (show Binary.bits x % F.signBit = F.inf from hp)]
    simp
  refine ⟨h1, ?_⟩
  rw [h1, B.fromText]
  have h2 : F.fromText ((if negative x then [45] else []) ++ [105, 110, 102]) =
      .ok ((if negative x then F.signBit else 0) + F.inf) := by
    cases negative x
    · have : scanFloat (cString [105, 110, 102]) = .infinity false := by decide
      simp only [Fmt.fromText, Bool.false_eq_true, if_false, List.nil_append, this]
      rfl
    · have : scanFloat (cString [45, 105, 110, 102]) = .infinity true := by decide
      simp only [Fmt.fromText, if_true, List.cons_append, List.nil_append, this]
      rfl
  rw [h2, ← hp, ← B.bits_eq]
  show Except.ok (of (Binary.bits x)) = _
  rw [B.of_bits]

theorem quietNaN_lt : F.inf < F.quietNaN ∧ F.quietNaN < F.signBit := by
  have h1 := Fmt.inf_lt B.good
  have h2 := B.good.frac
  unfold Fmt.quietNaN
  have h3 : 2 ^ F.frac = 2 * 2 ^ (F.frac - 1) := by
    rw [← pow_succ']
    congr 1
    omega
  have h4 : 0 < 2 ^ (F.frac - 1) := Nat.pow_pos (by norm_num)
  omega

theorem nan_back {x : T} (h : IsNaN x) : TextTraits.toText x = [78, 97, 78] ∧
    ∃ y : T, TextTraits.fromText (TextTraits.toText x) = .ok y ∧ IsNaN y := by
  have hp := (B.nan_iff x).1 h
  have h1 : TextTraits.toText x = [78, 97, 78] := by
    rw [B.toText]
    unfold Fmt.toText
    rw [if_pos (show F.inf < Binary.bits x % F.signBit from hp)]
  refine ⟨h1, of F.quietNaN, ?_, ?_⟩
  · rw [h1, B.fromText]
    unfold Fmt.fromText
    rw [if_pos rfl]
    rfl
  · obtain ⟨h2, h3⟩ := B.quietNaN_lt
    have := (B.of_pattern false h3).1
    simp only [Bool.false_eq_true, if_false, Nat.zero_add] at this
    rw [B.nan_iff, this]
    exact h2

/-! ### Words, and texts without a number -/

theorem words {s w rest : List UInt8} {neg : Bool} (h : After s neg (w ++ rest)) :
    (SpellsInf w → ∃ x : T, TextTraits.fromText s = .ok x ∧ IsInf x ∧ negative x = neg) ∧
    (SpellsNaN w → ∃ x : T, TextTraits.fromText s = .ok x ∧ IsNaN x) := by
  rw [B.fromText]
  constructor
  · intro hw
    have hs := scan_inf h hw
    have hne : s ≠ [78, 97, 78] := by
      rintro rfl
      rw [show scanFloat (cString [78, 97, 78]) = .nan false by decide] at hs
      cases hs
    obtain ⟨hp, hn⟩ := B.of_pattern neg (inf_lt_sign B.good)
    refine ⟨of ((if neg then F.signBit else 0) + F.inf), ?_, (B.inf_iff _).2 hp, hn⟩
    unfold Fmt.fromText
    rw [if_neg hne, hs]
    rfl
  · intro hw
    have hs := scan_nan h hw
    obtain ⟨h2, h3⟩ := B.quietNaN_lt
    unfold Fmt.fromText
    by_cases hne : s = [78, 97, 78]
    · rw [if_pos hne]
      have := (B.of_pattern false h3).1
      simp only [Bool.false_eq_true, if_false, Nat.zero_add] at this
      refine ⟨_, rfl, ?_⟩
      rw [B.nan_iff, this]
      exact h2
    · rw [if_neg hne, hs]
      refine ⟨_, rfl, ?_⟩
      rw [B.nan_iff, (B.of_pattern neg h3).1]
      exact h2

theorem rejects (s : List UInt8) : (TextTraits.fromText s : Except Err T) = .error .invalidArgument ↔ ¬ StartsNumber s := by
  rw [← starts_cString, ← scan_nothing, B.fromText]
  unfold Fmt.fromText
  by_cases hne : s = [78, 97, 78]
  · subst hne
    rw [if_pos rfl, show scanFloat (cString [78, 97, 78]) = .nan false by decide]
    constructor <;> intro h <;> cases h
  · rw [if_neg hne]
    cases scanFloat (cString s) with
    | nothing => exact ⟨fun _ => rfl, fun _ => rfl⟩
    | infinity neg => constructor <;> intro h <;> cases h
    | nan neg => constructor <;> intro h <;> cases h
    | number neg n d =>
      constructor
      · intro h
        simp only [Fmt.convert] at h
        split_ifs at h <;> cases h
      · intro h; cases h

end Bridge

end

/-! ## C67 -/

/-- A finite number is written with six decimals: the nearest number of millionths, the even one if two are equally near,
with the sign of the number. -/
theorem C67_text :
    (∀ x : F32, Finite x → ∃ k : Nat, TextTraits.toText x = sixDecimals (negative x) k ∧
      abs ((k : ℚ) / 1000000 - abs (value x)) ≤ 1 / 2000000 ∧
      (abs ((k : ℚ) / 1000000 - abs (value x)) = 1 / 2000000 → k % 2 = 0)) ∧
    (∀ x : F64, Finite x → ∃ k : Nat, TextTraits.toText x = sixDecimals (negative x) k ∧
      abs ((k : ℚ) / 1000000 - abs (value x)) ≤ 1 / 2000000 ∧
      (abs ((k : ℚ) / 1000000 - abs (value x)) = 1 / 2000000 → k % 2 = 0)) :=
  ⟨fun _ h => bridge_float.text h, fun _ h => bridge_double.text h⟩

/-- The text with six decimals denotes what it should. -/
theorem C67_text_denotes (neg : Bool) (k : Nat) :
    Numeral (sixDecimals neg k) neg ((if neg then -1 else 1) * ((k : ℚ) / 1000000)) := sixDecimals_numeral neg k

/-- A text that denotes a number is read as the nearest floating point number, with the sign of the text; it is refused with
`out_of_range` exactly if the number is too large, or too small and not a floating point number itself. -/
theorem C67_read (s : List UInt8) (neg : Bool) (q : ℚ) (h : Numeral s neg q) :
    (((tooLarge F32 ≤ |q| ∨ |q| < tooSmall F32 ∧ ∀ y : F32, Finite y → value y ≠ q) →
        (TextTraits.fromText s : Except Err F32) = .error .outOfRange) ∧
      (¬ (tooLarge F32 ≤ |q| ∨ |q| < tooSmall F32 ∧ ∀ y : F32, Finite y → value y ≠ q) →
        ∃ x : F32, TextTraits.fromText s = .ok x ∧ IsNearest q x ∧ negative x = neg)) ∧
    (((tooLarge F64 ≤ |q| ∨ |q| < tooSmall F64 ∧ ∀ y : F64, Finite y → value y ≠ q) →
        (TextTraits.fromText s : Except Err F64) = .error .outOfRange) ∧
      (¬ (tooLarge F64 ≤ |q| ∨ |q| < tooSmall F64 ∧ ∀ y : F64, Finite y → value y ≠ q) →
        ∃ x : F64, TextTraits.fromText s = .ok x ∧ IsNearest q x ∧ negative x = neg)) :=
  ⟨bridge_float.read h, bridge_double.read h⟩

/-- A text is refused with `invalid_argument` exactly if no number starts after white space and a sign. -/
theorem C67_rejects (s : List UInt8) :
    ((TextTraits.fromText s : Except Err F32) = .error .invalidArgument ↔ ¬ StartsNumber s) ∧
    ((TextTraits.fromText s : Except Err F64) = .error .invalidArgument ↔ ¬ StartsNumber s) :=
  ⟨bridge_float.rejects s, bridge_double.rejects s⟩

/-- Texts that begin with "inf" or "nan", in small or capital letters, are read as infinity and NaN, whatever follows. -/
theorem C67_words (s w rest : List UInt8) (neg : Bool) (h : After s neg (w ++ rest)) :
    (SpellsInf w → (∃ x : F32, TextTraits.fromText s = .ok x ∧ IsInf x ∧ negative x = neg) ∧
      ∃ x : F64, TextTraits.fromText s = .ok x ∧ IsInf x ∧ negative x = neg) ∧
    (SpellsNaN w → (∃ x : F32, TextTraits.fromText s = .ok x ∧ IsNaN x) ∧
      ∃ x : F64, TextTraits.fromText s = .ok x ∧ IsNaN x) :=
  ⟨fun hw => ⟨(bridge_float.words h).1 hw, (bridge_double.words h).1 hw⟩,
    fun hw => ⟨(bridge_float.words h).2 hw, (bridge_double.words h).2 hw⟩⟩

/-- Infinity is written as "inf" or "-inf" and comes back. -/
theorem C67_infinity :
    (∀ x : F32, IsInf x → TextTraits.toText x = (if negative x then [45] else []) ++ [105, 110, 102] ∧
      TextTraits.fromText (TextTraits.toText x) = .ok x) ∧
    (∀ x : F64, IsInf x → TextTraits.toText x = (if negative x then [45] else []) ++ [105, 110, 102] ∧
      TextTraits.fromText (TextTraits.toText x) = .ok x) :=
  ⟨fun _ h => bridge_float.inf_back h, fun _ h => bridge_double.inf_back h⟩

/-- NaN is written as "NaN" and a NaN comes back. -/
theorem C67_nan :
    (∀ x : F32, IsNaN x → TextTraits.toText x = [78, 97, 78] ∧
      ∃ y : F32, TextTraits.fromText (TextTraits.toText x) = .ok y ∧ IsNaN y) ∧
    (∀ x : F64, IsNaN x → TextTraits.toText x = [78, 97, 78] ∧
      ∃ y : F64, TextTraits.fromText (TextTraits.toText x) = .ok y ∧ IsNaN y) :=
  ⟨fun _ h => bridge_float.nan_back h, fun _ h => bridge_double.nan_back h⟩

/-- A finite number comes back from its text exactly if it is the floating point number nearest to some number of
millionths. -/
theorem C67_exact_iff :
    (∀ x : F32, Finite x → (TextTraits.fromText (TextTraits.toText x) = .ok x ↔ ∃ z : ℤ, IsNearest ((z : ℚ) / 1000000) x)) ∧
    (∀ x : F64, Finite x → (TextTraits.fromText (TextTraits.toText x) = .ok x ↔ ∃ z : ℤ, IsNearest ((z : ℚ) / 1000000) x)) :=
  ⟨fun _ h => bridge_float.exact_iff h, fun _ h => bridge_double.exact_iff h⟩

/-- In particular: whole numbers, and all others that are a number of millionths. -/
theorem C67_millionths :
    (∀ (x : F32) (z : ℤ), Finite x → value x = (z : ℚ) / 1000000 → TextTraits.fromText (TextTraits.toText x) = .ok x) ∧
    (∀ (x : F64) (z : ℤ), Finite x → value x = (z : ℚ) / 1000000 → TextTraits.fromText (TextTraits.toText x) = .ok x) := by
  constructor
  · intro x z hf h
    refine (C67_exact_iff.1 x hf).2 ⟨z, hf, fun y _ => ?_, fun y _ he hne => absurd ?_ hne⟩
    · rw [h, sub_self, abs_zero]; exact abs_nonneg _
    · rw [h, sub_self, abs_zero, abs_eq_zero, sub_eq_zero] at he
      rw [he, h]
  · intro x z hf h
    refine (C67_exact_iff.2 x hf).2 ⟨z, hf, fun y _ => ?_, fun y _ he hne => absurd ?_ hne⟩
    · rw [h, sub_self, abs_zero]; exact abs_nonneg _
    · rw [h, sub_self, abs_zero, abs_eq_zero, sub_eq_zero] at he
      rw [he, h]

/-- Large numbers come back: from 16 on for `float`, from 2³³ on for `double`. -/
theorem C67_large :
    (∀ x : F32, Finite x → 16 ≤ |value x| → TextTraits.fromText (TextTraits.toText x) = .ok x) ∧
    (∀ x : F64, Finite x → 2 ^ 33 ≤ |value x| → TextTraits.fromText (TextTraits.toText x) = .ok x) :=
  ⟨fun _ h hl => bridge_float.large h (le_trans (by norm_num [single]) hl),
    fun _ h hl => bridge_double.large h (le_trans (by norm_num [double]) hl)⟩

/-- Below that, what comes back has lost everything after the sixth decimal but has the same text. -/
theorem C67_stable :
    (∀ x : F32, Finite x → ∃ y : F32, TextTraits.fromText (TextTraits.toText x) = .ok y ∧ Finite y ∧
      TextTraits.toText y = TextTraits.toText x) ∧
    (∀ x : F64, Finite x → ∃ y : F64, TextTraits.fromText (TextTraits.toText x) = .ok y ∧ Finite y ∧
      TextTraits.toText y = TextTraits.toText x) :=
  ⟨fun _ h => bridge_float.stable h, fun _ h => bridge_double.stable h⟩

/-- The order is kept (two numbers may become equal). -/
theorem C67_monotone :
    (∀ x y : F32, Finite x → Finite y → value x ≤ value y →
      ∃ x' y' : F32, TextTraits.fromText (TextTraits.toText x) = .ok x' ∧ TextTraits.fromText (TextTraits.toText y) = .ok y' ∧
        value x' ≤ value y') ∧
    (∀ x y : F64, Finite x → Finite y → value x ≤ value y →
      ∃ x' y' : F64, TextTraits.fromText (TextTraits.toText x) = .ok x' ∧ TextTraits.fromText (TextTraits.toText y) = .ok y' ∧
        value x' ≤ value y') :=
  ⟨fun _ _ hx hy h => bridge_float.monotone hx hy h, fun _ _ hx hy h => bridge_double.monotone hx hy h⟩

/-- A number of at most half a millionth becomes zero. -/
theorem C67_small :
    (∀ x : F32, Finite x → |value x| ≤ 1 / 2000000 → TextTraits.toText x = sixDecimals (negative x) 0 ∧
      ∃ y : F32, TextTraits.fromText (TextTraits.toText x) = .ok y ∧ value y = 0) ∧
    (∀ x : F64, Finite x → |value x| ≤ 1 / 2000000 → TextTraits.toText x = sixDecimals (negative x) 0 ∧
      ∃ y : F64, TextTraits.fromText (TextTraits.toText x) = .ok y ∧ value y = 0) :=
  ⟨fun _ h hs => bridge_float.small h hs, fun _ h hs => bridge_double.small h hs⟩

/-- Texts with six decimals come back from their numbers: up to 16 for `float`, up to 2³³ for `double`. -/
theorem C67_texts (neg : Bool) :
    (∀ k < 16 * 1000000, ∃ x : F32, TextTraits.fromText (sixDecimals neg k) = .ok x ∧ TextTraits.toText x = sixDecimals neg k) ∧
    (∀ k < 2 ^ 33 * 1000000, ∃ x : F64, TextTraits.fromText (sixDecimals neg k) = .ok x ∧ TextTraits.toText x = sixDecimals neg k) :=
  ⟨fun k hk => bridge_float.text_back neg (k := k) hk, fun k hk => bridge_double.text_back neg (k := k) hk⟩

/-- What a user expects: every finite number comes back from its text. -/
def C67Claim : Prop :=
  (∀ x : F32, Finite x → TextTraits.fromText (TextTraits.toText x) = .ok x) ∧
  (∀ x : F64, Finite x → TextTraits.fromText (TextTraits.toText x) = .ok x)

/-- It is false: 0.0000001 (`float`). -/
theorem C67_false : ¬ C67Claim := by
  intro h
  have h1 := h.1 ⟨0x33D6BF95⟩ (by unfold Finite exponent; decide)
  revert h1
  decide +kernel

/-! ### Examples -/

/-- 1.5: written, read, and a number of millionths. -/
example : TextTraits.toText (⟨0x3FC00000⟩ : F32) = "1.500000".toUTF8.toList ∧
    (TextTraits.fromText "1.500000".toUTF8.toList : Except Err F32) = .ok ⟨0x3FC00000⟩ := by decide +kernel

example : Finite (⟨0x3FC00000⟩ : F32) ∧ value (⟨0x3FC00000⟩ : F32) = ((1500000 : ℤ) : ℚ) / 1000000 := by
  have h1 : exponent (⟨0x3FC00000⟩ : F32) = 127 := by decide
  have h2 : fraction (⟨0x3FC00000⟩ : F32) = 2 ^ 22 := by decide
  have h3 : negative (⟨0x3FC00000⟩ : F32) = false := by decide
  have h4 : bias F32 = 127 := by decide
  refine ⟨by unfold Finite; rw [h1]; decide, ?_⟩
  unfold value
  rw [h1, h2, h3, h4]
  norm_num [Binary.frac]

/-- -0.1 as `double`, which is not a number of millionths but nearest to one, comes back. -/
example : TextTraits.toText (⟨0xBFB999999999999A⟩ : F64) = "-0.100000".toUTF8.toList ∧
    (TextTraits.fromText "-0.100000".toUTF8.toList : Except Err F64) = .ok ⟨0xBFB999999999999A⟩ := by decide +kernel

/-- Texts that denote numbers. -/
example : Numeral "-1.25e2 metres".toUTF8.toList true (-125) :=
  ⟨[], [45], [49], [46], [50, 53], [101, 50], [32, 109, 101, 116, 114, 101, 115], 2, by decide +kernel, by simp,
    .inl ⟨rfl, rfl⟩, by decide, by simp, .inl rfl,
    .inr ⟨101, [], [50], rfl, .inl rfl, by decide, by simp, .inr ⟨.inl rfl, by decide⟩⟩,
    by decide, by rw [show digitsVal [49] = 1 by decide, show digitsVal [50, 53] = 25 by decide]; norm_num⟩

/-- A word that is read as infinity. -/
example : After "information".toUTF8.toList false ([105, 110, 102] ++ "ormation".toUTF8.toList) ∧ SpellsInf [105, 110, 102] :=
  ⟨⟨[], [], by decide +kernel, by simp, .inr ⟨rfl, .inl rfl⟩⟩, 105, 110, 102, rfl, .inl rfl, .inl rfl, .inl rfl⟩

example : (TextTraits.fromText "1e39".toUTF8.toList : Except Err F32) = .error .outOfRange ∧
    (TextTraits.fromText "hello".toUTF8.toList : Except Err F32) = .error .invalidArgument ∧
    (TextTraits.fromText " +0x1.8p1".toUTF8.toList : Except Err F64) = .ok ⟨0x4008000000000000⟩ := by decide +kernel

/-- Numbers that are large in the sense above, small, infinite, NaN. -/
example : Finite (⟨0x7F7FFFFF⟩ : F32) ∧ IsInf (⟨0xFF800000⟩ : F32) ∧ IsNaN (⟨0x7FC00001⟩ : F32) ∧ Finite (⟨1⟩ : F64) := by
  unfold Finite IsInf IsNaN
  decide

end Feat.FloatText
