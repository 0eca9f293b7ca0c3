import Verif.Spec.FloatGrammar
import Verif.Props.FloatText
/-
C67, completed: what every text is read as, by the grammar of C.
-/
namespace Feat.FloatText

/-! ### One form, scanned -/

theorem head_append_some {A : Type} {a b : List A} {x : A} (h : (a ++ b).head? = some x) :
    a.head? = some x ∨ a = [] ∧ b.head? = some x := by
  cases a with
  | nil => exact .inr ⟨rfl, h⟩
  | cons y a => exact .inl h

/-- The forms of one base: what is a digit, and the letters of the exponent. -/
structure Form where
  isD : UInt8 → Bool
  small : UInt8
  capital : UInt8
  point : isD 46 = false
  smallD : isD small = false
  capitalD : isD capital = false
  lower : ∀ c, lowerByte c = small ↔ c = small ∨ c = capital
  small46 : small ≠ 46
  capital46 : capital ≠ 46

namespace Form
variable (K : Form)

/-- A number of the form, in parts. -/
structure Parts (w ip fp : List UInt8) (e : ℤ) : Prop where
  ex : ∃ point expo, w = ip ++ (point ++ (fp ++ expo)) ∧ (∀ c ∈ ip ++ fp, K.isD c = true) ∧ ip ++ fp ≠ [] ∧
    (point = [46] ∨ point = [] ∧ fp = []) ∧ Exponent K.small K.capital expo e

/-- The exponent of the longest beginning. -/
theorem scan_exponent {expo rest : List UInt8} {e : ℤ} (h : Exponent K.small K.capital expo e)
    (hmax : ∀ expo' e', Exponent K.small K.capital expo' e' → expo' <+: expo ++ rest → expo'.length ≤ expo.length) :
    scanExponent K.small (expo ++ rest) = e := by
  rcases h with ⟨rfl, rfl⟩ | ⟨letter, esign, ds, rfl, hl, hd, hne, hs⟩
  · cases rest with
    | nil => rfl
    | cons c cs =>
      rw [List.nil_append, scanExponent]
      split
      case isFalse => rfl
      case isTrue hc =>
      have hc := (K.lower c).1 hc
      have none' : ∀ (sign r : List UInt8), cs = sign ++ r → (sign = [45] ∨ sign = [] ∨ sign = [43]) → r.takeWhile isDigit = [] := by
        intro sign r hr hsign
        by_contra hn
        have := hmax (c :: (sign ++ r.takeWhile isDigit)) (if sign = [45] then -(digitsVal (r.takeWhile isDigit) : ℤ) else
          digitsVal (r.takeWhile isDigit)) (.inr ⟨c, sign, _, rfl, hc, takeWhile_all _ _, hn, by
            rcases hsign with rfl | rfl | rfl
            · exact .inl ⟨rfl, rfl⟩
            · exact .inr ⟨.inl rfl, rfl⟩
            · exact .inr ⟨.inr rfl, rfl⟩⟩) (by
            rw [List.nil_append, hr]
            exact List.prefix_cons_inj c |>.2 (List.prefix_append_right_inj sign |>.2 (List.takeWhile_prefix _)))
        simp at this
      unfold scanSigned
      split
      · rw [none' [45] _ rfl (.inl rfl)]; rfl
      · rw [none' [43] _ rfl (.inr (.inr rfl))]; rfl
      · rw [none' [] _ rfl (.inr (.inl rfl))]; rfl
  · have hrest : ∀ c, rest.head? = some c → isDigit c = false := by
      intro c hc
      by_contra hn
      have hn : isDigit c = true := by simpa using hn
      obtain ⟨r, rfl⟩ : ∃ r, rest = c :: r := by
        cases rest with
        | nil => simp at hc
        | cons x r => simp at hc; exact ⟨r, by rw [hc]⟩
      have := hmax (letter :: (esign ++ (ds ++ [c]))) (if esign = [45] then -(digitsVal (ds ++ [c]) : ℤ) else digitsVal (ds ++ [c]))
        (.inr ⟨letter, esign, ds ++ [c], rfl, hl, by
          intro x hx
          rcases List.mem_append.1 hx with hx | hx
          · exact hd x hx
          · rw [List.mem_singleton.1 hx]; exact hn, by simp, by
          rcases hs with ⟨rfl, _⟩ | ⟨rfl | rfl, _⟩
          · exact .inl ⟨rfl, rfl⟩
          · exact .inr ⟨.inl rfl, rfl⟩
          · exact .inr ⟨.inr rfl, rfl⟩⟩) ⟨r, by simp⟩
      simp at this
    have htw : (ds ++ rest).takeWhile isDigit = ds := takeWhile_front _ _ _ hd hrest
    obtain ⟨d, ds', rfl⟩ := List.exists_cons_of_ne_nil hne
    have hdd := digit_byte d (hd d (by simp))
    rw [List.cons_append, List.append_assoc, scanExponent, if_pos ((K.lower _).2 hl)]
    rcases hs with ⟨rfl, rfl⟩ | ⟨rfl | rfl, rfl⟩
    · show -(digitsVal ((d :: ds' ++ rest).takeWhile isDigit) : ℤ) = _
      rw [htw]
    · rw [List.nil_append]
      unfold scanSigned
      split
      · rename_i h; exact absurd (List.cons.inj h).1 hdd.2.2.1
      · rename_i h; exact absurd (List.cons.inj h).1 hdd.2.1
      · rw [htw]
    · show (digitsVal ((d :: ds' ++ rest).takeWhile isDigit) : ℤ) = _
      rw [htw]

/-- The parts of the longest beginning are what is scanned. -/
theorem scan_parts {w ip fp body : List UInt8} {e : ℤ} (h : K.Parts w ip fp e) (hp : w <+: body)
    (hmax : ∀ w' ip' fp' e', K.Parts w' ip' fp' e' → w' <+: body → w'.length ≤ w.length) :
    ip ++ fp ≠ [] ∧ ∃ tail, scanDigits K.isD body = (ip, fp, tail) ∧ scanExponent K.small tail = e := by
  obtain ⟨point, expo, rfl, hd, hne, hpt, hexpo⟩ := h.ex
  obtain ⟨rest, rfl⟩ := hp
  refine ⟨hne, expo ++ rest, ?_, ?_⟩
  · have hhead : ∀ c, (expo ++ rest).head? = some c → K.isD c = false ∧ (point = [] → c ≠ 46) := by
      intro c hc
      rcases head_append_some hc with hc | ⟨rfl, hc⟩
      · rcases hexpo with ⟨rfl, _⟩ | ⟨letter, esign, ds, rfl, hl, _⟩
        · simp at hc
        · simp at hc
          subst hc
          rcases hl with rfl | rfl
          · exact ⟨K.smallD, fun _ => K.small46⟩
          · exact ⟨K.capitalD, fun _ => K.capital46⟩
      · obtain ⟨r, rfl⟩ : ∃ r, rest = c :: r := by
          cases rest with
          | nil => simp at hc
          | cons x r => simp at hc; exact ⟨r, by rw [hc]⟩
        constructor
        · by_contra hn
          have hn : K.isD c = true := by simpa using hn
          rcases hpt with rfl | ⟨rfl, rfl⟩
          · have := hmax (ip ++ ([46] ++ ((fp ++ [c]) ++ []))) ip (fp ++ [c]) 0 ⟨[46], [], rfl, by
              intro x hx
              rw [← List.append_assoc] at hx
              rcases List.mem_append.1 hx with hx | hx
              · exact hd x hx
              · rw [List.mem_singleton.1 hx]; exact hn, by simp, .inl rfl, .inl ⟨rfl, rfl⟩⟩ ⟨r, by simp⟩
            simp at this
          · have := hmax ((ip ++ [c]) ++ ([] ++ ([] ++ []))) (ip ++ [c]) [] 0 ⟨[], [], rfl, by
              intro x hx
              rw [List.append_nil] at hx
              rcases List.mem_append.1 hx with hx | hx
              · exact hd x (by simp [hx])
              · rw [List.mem_singleton.1 hx]; exact hn, by simp, .inr ⟨rfl, rfl⟩, .inl ⟨rfl, rfl⟩⟩ ⟨r, by simp⟩
            simp at this
        · rintro rfl rfl
          obtain rfl : fp = [] := by simpa using hpt
          have := hmax (ip ++ ([46] ++ ([] ++ []))) ip [] 0 ⟨[46], [], rfl, hd, hne, .inl rfl, .inl ⟨rfl, rfl⟩⟩ ⟨r, by simp⟩
          simp at this
    have hi : ∀ c ∈ ip, K.isD c = true := fun c hc => hd c (by simp [hc])
    have hf : ∀ c ∈ fp, K.isD c = true := fun c hc => hd c (by simp [hc])
    rcases hpt with rfl | ⟨rfl, rfl⟩
    · have e0 : ip ++ ([46] ++ (fp ++ expo)) ++ rest = ip ++ (46 :: (fp ++ (expo ++ rest))) := by simp
      rw [e0]
      unfold scanDigits
      rw [dropWhile_front _ _ _ hi (by intro x hx; simp at hx; rw [← hx]; exact K.point),
        takeWhile_front _ _ _ hi (by intro x hx; simp at hx; rw [← hx]; exact K.point)]
      simp only
      rw [takeWhile_front _ _ _ hf (fun c hc => (hhead c hc).1), dropWhile_front _ _ _ hf (fun c hc => (hhead c hc).1)]
    · have e0 : ip ++ ([] ++ ([] ++ expo)) ++ rest = ip ++ (expo ++ rest) := by simp
      rw [e0]
      unfold scanDigits
      rw [dropWhile_front _ _ _ hi (fun c hc => (hhead c hc).1), takeWhile_front _ _ _ hi (fun c hc => (hhead c hc).1)]
      split
      · rename_i cs hcs
        exact absurd rfl ((hhead 46 (by rw [hcs]; rfl)).2 rfl)
      · rfl
  · refine K.scan_exponent hexpo fun expo' e' h' hp' => ?_
    have := hmax (ip ++ (point ++ (fp ++ expo'))) ip fp e' ⟨point, expo', rfl, hd, hne, hpt, h'⟩ (by
      rw [List.append_assoc, List.append_assoc, List.append_assoc]
      exact (List.prefix_append_right_inj _).2 ((List.prefix_append_right_inj _).2 ((List.prefix_append_right_inj _).2 hp')))
    simp at this
    omega

/-- If there are digits, some beginning is a number. -/
theorem parts_exist {s : List UInt8} (h : (scanDigits K.isD s).1 ++ (scanDigits K.isD s).2.1 ≠ []) :
    ∃ m ip fp, K.Parts m ip fp 0 ∧ m <+: s := by
  unfold scanDigits at h
  have hsplit := List.takeWhile_append_dropWhile (p := K.isD) (l := s)
  split at h
  · rename_i cs hcs
    simp only at h
    rw [hcs] at hsplit
    refine ⟨_, s.takeWhile K.isD, cs.takeWhile K.isD, ⟨[46], [], rfl, ?_, h, .inl rfl, .inl ⟨rfl, rfl⟩⟩, ?_⟩
    · intro c hc
      rcases List.mem_append.1 hc with hc | hc
      · exact takeWhile_all _ _ c hc
      · exact takeWhile_all _ _ c hc
    · conv_rhs => rw [← hsplit]
      rw [List.append_nil]
      exact (List.prefix_append_right_inj _).2 ((List.prefix_cons_inj _).2 (List.takeWhile_prefix _))
  · simp only [List.append_nil] at h
    refine ⟨_, s.takeWhile K.isD, [], ⟨[], [], rfl, ?_, by simpa using h, .inr ⟨rfl, rfl⟩, .inl ⟨rfl, rfl⟩⟩, ?_⟩
    · intro c hc
      rw [List.append_nil] at hc
      exact takeWhile_all _ _ c hc
    · simp only [List.append_nil]
      exact List.takeWhile_prefix _

end Form

/-! ### The two forms -/

theorem hex_digit (c : UInt8) : isHexDigit c = (hexValue c).isSome :=
  byte_all (P := fun c => isHexDigit c = (hexValue c).isSome) (by decide +kernel) c

theorem hex_val (c : UInt8) : (hexValue c).isSome = true → hexDigitVal c = (hexValue c).getD 0 :=
  byte_all (P := fun c => (hexValue c).isSome = true → hexDigitVal c = (hexValue c).getD 0) (by decide +kernel) c

/-- Decimal numbers. -/
def decForm : Form where
  isD := isDigit
  small := 101
  capital := 69
  point := by decide
  smallD := by decide
  capitalD := by decide
  lower := byte_all (by decide +kernel)
  small46 := by decide
  capital46 := by decide

/-- Hexadecimal numbers, after "0x". -/
def hexForm : Form where
  isD := isHexDigit
  small := 112
  capital := 80
  point := by decide
  smallD := by decide
  capitalD := by decide
  lower := byte_all (by decide +kernel)
  small46 := by decide
  capital46 := by decide

theorem decimal_iff (w : List UInt8) (q : ℚ) : Decimal w q ↔ ∃ ip fp e, decForm.Parts w ip fp e ∧
    q = ((digitsVal ip : ℚ) + (digitsVal fp : ℚ) / 10 ^ fp.length) * (10 : ℚ) ^ e := by
  constructor
  · rintro ⟨m, ip, fp, expo, e, rfl, ⟨point, rfl, h1, h2, h3⟩, h4, h5⟩
    exact ⟨ip, fp, e, ⟨point, expo, by simp, h1, h2, h3, h4⟩, h5⟩
  · rintro ⟨ip, fp, e, ⟨point, expo, rfl, h1, h2, h3, h4⟩, h5⟩
    exact ⟨ip ++ point ++ fp, ip, fp, expo, e, by simp, ⟨point, rfl, h1, h2, h3⟩, h4, h5⟩

theorem hexadecimal_iff (w : List UInt8) (q : ℚ) : Hexadecimal w q ↔ ∃ x w' ip fp e, w = 48 :: x :: w' ∧ (x = 120 ∨ x = 88) ∧
    hexForm.Parts w' ip fp e ∧ q = ((hexNumber ip : ℚ) + (hexNumber fp : ℚ) / 16 ^ fp.length) * (2 : ℚ) ^ e := by
  constructor
  · rintro ⟨x, m, ip, fp, expo, e, rfl, hx, ⟨point, rfl, h1, h2, h3⟩, h4, h5⟩
    exact ⟨x, _, ip, fp, e, rfl, hx, ⟨point, expo, by simp, fun c hc => by rw [← h1 c hc]; exact hex_digit c, h2, h3, h4⟩, h5⟩
  · rintro ⟨x, w', ip, fp, e, rfl, hx, ⟨point, expo, rfl, h1, h2, h3, h4⟩, h5⟩
    exact ⟨x, ip ++ point ++ fp, ip, fp, expo, e, by simp, hx,
      ⟨point, rfl, fun c hc => by rw [← h1 c hc]; exact (hex_digit c).symm, h2, h3⟩, h4, h5⟩

theorem scaled_value (n base : Nat) (hb : 0 < base) (e : ℤ) :
    0 < base ^ (-e).toNat ∧ ((n * base ^ e.toNat : Nat) : ℚ) / ((base ^ (-e).toNat : Nat) : ℚ) = (n : ℚ) * (base : ℚ) ^ e := by
  refine ⟨Nat.pow_pos hb, ?_⟩
  have hb' : (base : ℚ) ≠ 0 := by exact_mod_cast hb.ne'
  push_cast
  rcases le_total 0 e with h | h
  · obtain ⟨k, rfl⟩ := Int.eq_ofNat_of_zero_le h
    simp
  · obtain ⟨k, hk⟩ := Int.eq_ofNat_of_zero_le (show 0 ≤ -e by omega)
    obtain rfl : e = -(k : ℤ) := by omega
    simp [div_eq_mul_inv]

theorem hexNumber_append (a b : List UInt8) : hexNumber (a ++ b) = hexNumber a * 16 ^ b.length + hexNumber b := by
  induction a with
  | nil => simp [hexNumber]
  | cons c a ih =>
    rw [List.cons_append, hexNumber, hexNumber, ih, List.length_append, pow_add]
    ring

theorem hexNumber_fold (ds : List UInt8) (h : ∀ c ∈ ds, isHexDigit c = true) :
    ds.foldl (fun n d => 16 * n + hexDigitVal d) 0 = hexNumber ds := by
  induction ds using List.reverseRecOn with
  | nil => rfl
  | append_singleton a c ih =>
    rw [List.foldl_append, ih (fun x hx => h x (by simp [hx])), hexNumber_append]
    have := hex_val c (by rw [← hex_digit]; exact h c (by simp))
    simp [hexNumber, this]
    ring

theorem decimal_value (ip fp : List UInt8) (e : ℤ) :
    (digitsVal (ip ++ fp) : ℚ) * (10 : ℚ) ^ (e - fp.length) =
      ((digitsVal ip : ℚ) + (digitsVal fp : ℚ) / 10 ^ fp.length) * (10 : ℚ) ^ e := by
  rw [digitsVal_append, zpow_sub₀ (by norm_num), zpow_natCast]
  push_cast
  field_simp

theorem hex_value (ip fp : List UInt8) (e : ℤ) :
    (hexNumber (ip ++ fp) : ℚ) * (2 : ℚ) ^ (e - 4 * fp.length) =
      ((hexNumber ip : ℚ) + (hexNumber fp : ℚ) / 16 ^ fp.length) * (2 : ℚ) ^ e := by
  rw [hexNumber_append, zpow_sub₀ (by norm_num), show (4 * (fp.length : ℤ)) = ((4 * fp.length : Nat) : ℤ) by push_cast; ring,
    zpow_natCast, pow_mul, show (2 : ℚ) ^ 4 = 16 by norm_num]
  push_cast
  field_simp

/-- A number has no character zero, no white space, no letter i, n, x in front. -/
theorem literal_head {w : List UInt8} {q : ℚ} (h : Literal w q) : ∃ c r, w = c :: r ∧ (isDigit c = true ∨ c = 46) := by
  rcases h with h | h
  · obtain ⟨ip, fp, e, ⟨point, expo, rfl, h1, h2, h3, h4⟩, -⟩ := (decimal_iff w q).1 h
    cases ip with
    | cons c ip => exact ⟨c, _, rfl, .inl (h1 c (by simp))⟩
    | nil =>
      rcases h3 with rfl | ⟨rfl, rfl⟩
      · exact ⟨46, _, rfl, .inr rfl⟩
      · exact absurd rfl h2
  · obtain ⟨x, w', ip, fp, e, rfl, -⟩ := (hexadecimal_iff w q).1 h
    exact ⟨48, _, rfl, .inl (by decide)⟩

theorem Form.Parts.no_zero {K : Form} (h0 : K.isD 0 = false) (hs : K.small ≠ 0) (hc : K.capital ≠ 0) {w ip fp : List UInt8} {e : ℤ}
    (h : K.Parts w ip fp e) : (0 : UInt8) ∉ w := by
  obtain ⟨point, expo, rfl, h1, h2, h3, h4⟩ := h.ex
  simp only [List.mem_append, not_or]
  refine ⟨fun h => ?_, fun h => ?_, fun h => ?_, fun h => ?_⟩
  · have := h1 0 (by simp [h]); rw [h0] at this; cases this
  · rcases h3 with rfl | ⟨rfl, _⟩ <;> simp at h
  · have := h1 0 (by simp [h]); rw [h0] at this; cases this
  · rcases h4 with ⟨rfl, _⟩ | ⟨letter, esign, ds, rfl, hl, hd, -, hsn⟩
    · simp at h
    · simp only [List.mem_cons, List.mem_append] at h
      rcases h with h | h | h
      · rcases hl with rfl | rfl
        · exact hs h.symm
        · exact hc h.symm
      · rcases hsn with ⟨rfl, _⟩ | ⟨rfl | rfl, _⟩ <;> simp at h
      · have := hd 0 h; revert this; decide

theorem literal_no_zero {w : List UInt8} {q : ℚ} (h : Literal w q) : (0 : UInt8) ∉ w := by
  rcases h with h | h
  · obtain ⟨ip, fp, e, h, -⟩ := (decimal_iff w q).1 h
    exact h.no_zero (by decide) (by decide) (by decide)
  · obtain ⟨x, w', ip, fp, e, rfl, hx, h, -⟩ := (hexadecimal_iff w q).1 h
    have := h.no_zero (by decide) (by decide) (by decide)
    simp only [List.mem_cons, not_or]
    refine ⟨by decide, ?_, this⟩
    rcases hx with rfl | rfl <;> decide

theorem prefix_cString {w s : List UInt8} (h : (0 : UInt8) ∉ w) : w <+: cString s ↔ w <+: s := by
  constructor
  · intro hw
    exact hw.trans (List.takeWhile_prefix _)
  · rintro ⟨r, rfl⟩
    unfold cString
    rw [List.takeWhile_append_of_pos (fun x hx => by
      have : x ≠ 0 := fun e => h (e ▸ hx)
      simpa using this)]
    exact List.prefix_append _ _

theorem longest_cString {s w : List UInt8} {q : ℚ} (h : LongestLiteral s w q) : LongestLiteral (cString s) w q :=
  ⟨h.1, (prefix_cString (literal_no_zero h.1)).2 h.2.1, fun w' q' h' hp =>
    h.2.2 w' q' h' ((prefix_cString (literal_no_zero h')).1 hp)⟩

theorem scanDecimal_longest {body w : List UInt8} {q : ℚ} (neg : Bool) (h : Decimal w q) (hp : w <+: body)
    (hmax : ∀ w' q', Literal w' q' → w' <+: body → w'.length ≤ w.length) :
    ∃ n d : Nat, scanDecimal neg body = .number neg n d ∧ 0 < d ∧ q = (n : ℚ) / d := by
  obtain ⟨ip, fp, e, hparts, rfl⟩ := (decimal_iff w q).1 h
  obtain ⟨hne, tail, hs, he⟩ := decForm.scan_parts hparts hp fun w' ip' fp' e' h' hp' =>
    hmax w' _ (.inl ((decimal_iff w' _).2 ⟨ip', fp', e', h', rfl⟩)) hp'
  have hs : scanDigits isDigit body = (ip, fp, tail) := hs
  have he : scanExponent 101 tail = e := he
  have hv := scaled_value (digitsVal (ip ++ fp)) 10 (by norm_num) (e - fp.length)
  refine ⟨digitsVal (ip ++ fp) * 10 ^ (e - fp.length).toNat, 10 ^ (-(e - fp.length)).toNat, ?_, hv.1, ?_⟩
  · unfold scanDecimal
    rw [hs]
    simp only
    rw [if_neg hne, he]
    rfl
  · rw [hv.2, ← decimal_value]
    norm_num

theorem scanHex_longest {body w : List UInt8} (neg : Bool) {ip fp : List UInt8} {e : ℤ} (h : hexForm.Parts w ip fp e) (hp : w <+: body)
    (hmax : ∀ w' ip' fp' e', hexForm.Parts w' ip' fp' e' → w' <+: body → w'.length ≤ w.length) :
    ∃ n d : Nat, scanHex neg body = some (.number neg n d) ∧ 0 < d ∧
      ((hexNumber ip : ℚ) + (hexNumber fp : ℚ) / 16 ^ fp.length) * (2 : ℚ) ^ e = (n : ℚ) / d := by
  obtain ⟨hne, tail, hs, he⟩ := hexForm.scan_parts h hp hmax
  have hs : scanDigits isHexDigit body = (ip, fp, tail) := hs
  have he : scanExponent 112 tail = e := he
  have hv := scaled_value (hexNumber (ip ++ fp)) 2 (by norm_num) (e - 4 * fp.length)
  refine ⟨hexNumber (ip ++ fp) * 2 ^ (e - 4 * fp.length).toNat, 2 ^ (-(e - 4 * fp.length)).toNat, ?_, hv.1, ?_⟩
  · obtain ⟨point, expo, -, h1, -⟩ := h.ex
    unfold scanHex
    rw [hs]
    simp only
    rw [if_neg hne, he, hexNumber_fold _ h1]
    rfl
  · rw [hv.2, ← hex_value]
    norm_num

theorem scanUnsigned_longest {body w : List UInt8} {q : ℚ} (neg : Bool) (h : LongestLiteral body w q) :
    ∃ n d : Nat, scanUnsigned neg body = .number neg n d ∧ 0 < d ∧ q = (n : ℚ) / d := by
  obtain ⟨hlit, hp, hmax⟩ := h
  obtain ⟨c, r, rfl, hc⟩ := literal_head hlit
  obtain ⟨rest, rfl⟩ := hp
  have hlow : lowerByte c ≠ 105 ∧ lowerByte c ≠ 110 := by
    rcases hc with hc | rfl
    · exact ⟨(digit_byte c hc).2.2.2.2.2.1, (digit_byte c hc).2.2.2.2.2.2.1⟩
    · decide
  unfold scanUnsigned
  rw [if_neg (by
    intro hx
    cases hr : (c :: r ++ rest).take 3 with
    | nil => simp at hr
    | cons a l =>
      rw [hr] at hx
      have : a = c := by simp at hr; exact hr.1.symm
      subst this
      simp at hx
      exact hlow.1 hx.1), if_neg (by
    intro hx
    cases hr : (c :: r ++ rest).take 3 with
    | nil => simp at hr
    | cons a l =>
      rw [hr] at hx
      have : a = c := by simp at hr; exact hr.1.symm
      subst this
      simp at hx
      exact hlow.2 hx.1)]
  split
  case isTrue hx =>
    obtain ⟨x, b, hb, hx⟩ : ∃ x b, c :: r ++ rest = 48 :: x :: b ∧ (x = 120 ∨ x = 88) := by
      cases hb : r ++ rest with
      | nil => rw [List.cons_append, hb] at hx; simp at hx
      | cons x b =>
        rw [List.cons_append, hb] at hx ⊢
        simp only [List.take_succ_cons, List.take_zero, List.map_cons, List.map_nil, List.cons.injEq, and_true] at hx
        have h48 : ∀ c : UInt8, lowerByte c = 48 → c = 48 := byte_all (by decide +kernel)
        exact ⟨x, b, by rw [h48 c hx.1], (lower_x x).1 hx.2⟩
    rcases hlit with hdec | hhex
    · -- a hexadecimal number would be longer
      have hlen : (c :: r).length ≤ 1 := by
        obtain ⟨ip, fp, e, ⟨point, expo, hw, h1, h2, h3, h4⟩, -⟩ := (decimal_iff _ q).1 hdec
        cases r with
        | nil => simp
        | cons y r =>
          exfalso
          obtain ⟨rfl, rfl⟩ : c = 48 ∧ y = x := by simp at hb; exact ⟨hb.1, hb.2.1⟩
          have hy : isDigit y = false ∧ y ≠ 46 ∧ y ≠ 101 ∧ y ≠ 69 := by rcases hx with rfl | rfl <;> decide
          cases ip with
          | nil =>
            rcases h3 with rfl | ⟨rfl, rfl⟩
            · simp at hw
            · exact h2 rfl
          | cons a ip =>
            cases ip with
            | cons a' ip =>
              simp at hw
              rw [← hw.2.1] at h1
              have := h1 y (by simp)
              rw [show decForm.isD = isDigit from rfl, hy.1] at this
              cases this
            | nil =>
              rcases h3 with rfl | ⟨rfl, rfl⟩
              · simp at hw
                exact hy.2.1 hw.2.1
              · rcases h4 with ⟨rfl, _⟩ | ⟨letter, esign, ds, rfl, hl, -⟩
                · simp at hw
                · simp at hw
                  rw [← hw.2.1] at hl
                  rcases hl with hl | hl
                  · exact hy.2.2.1 hl
                  · exact hy.2.2.2 hl
      have hnone : scanHex neg ((c :: r ++ rest).drop 2) = none := by
        unfold scanHex
        rw [hb]
        show (if _ then _ else _) = _
        rw [if_pos]
        by_contra hn
        obtain ⟨m, ip, fp, hm, hmp⟩ := hexForm.parts_exist hn
        have := hmax (48 :: x :: m) _ (.inr ((hexadecimal_iff _ _).2 ⟨x, m, ip, fp, 0, rfl, hx, hm, rfl⟩)) (by
          rw [hb]
          exact (List.prefix_cons_inj _).2 ((List.prefix_cons_inj _).2 hmp))
        simp only [List.length_cons] at this hlen
        omega
      rw [hnone]
      exact scanDecimal_longest neg hdec (List.prefix_append _ _) hmax
    · obtain ⟨x', w', ip, fp, e, hw, hx', h, rfl⟩ := (hexadecimal_iff _ q).1 hhex
      rw [hw] at hb hmax ⊢
      obtain ⟨rfl, hb⟩ : x' = x ∧ w' ++ rest = b := by simpa using hb
      obtain ⟨n, d, h1, h2, h3⟩ := scanHex_longest neg h (List.prefix_append w' rest) fun w'' ip' fp' e' h' hp' => by
        have := hmax (48 :: x' :: w'') _ (.inr ((hexadecimal_iff _ _).2 ⟨x', w'', ip', fp', e', rfl, hx', h', rfl⟩))
          ((List.prefix_cons_inj _).2 ((List.prefix_cons_inj _).2 hp'))
        simpa using this
      refine ⟨n, d, ?_, h2, h3⟩
      show (scanHex neg (w' ++ rest)).getD _ = _
      rw [h1]
      rfl
  case isFalse hx =>
    rcases hlit with hdec | hhex
    · exact scanDecimal_longest neg hdec (List.prefix_append _ _) hmax
    · exfalso
      obtain ⟨x', w', ip, fp, e, hw, hx', -⟩ := (hexadecimal_iff _ q).1 hhex
      apply hx
      rw [hw]
      rcases hx' with rfl | rfl <;> rfl

/-- What is scanned from a text that denotes a number. -/
theorem scan_denotes {s : List UInt8} {neg : Bool} {q : ℚ} (h : Denotes s neg q) :
    s ≠ [78, 97, 78] ∧ ∃ n d : Nat, scanFloat (cString s) = .number neg n d ∧ 0 < d ∧ q = signOf neg * ((n : ℚ) / d) := by
  obtain ⟨body, w, a, hafter, hlong, rfl⟩ := h
  have hlong' := longest_cString hlong
  obtain ⟨c, r, rfl, hc⟩ := literal_head hlong.1
  obtain ⟨rest, rfl⟩ := hlong.2.1
  have hc' : c ≠ 0 ∧ isSpace c = false ∧ c ≠ 43 ∧ c ≠ 45 ∧ c ≠ 78 := by
    rcases hc with hc | rfl
    · have := digit_byte c hc
      exact ⟨this.2.2.2.2.1, this.1, this.2.1, this.2.2.1, this.2.2.2.2.2.2.2.2.1⟩
    · decide
  rw [List.cons_append] at hafter hlong'
  have hs := scan_after hafter hc'.1 hc'.2.1 hc'.2.2.1 hc'.2.2.2.1
  have hcs : cString (c :: (r ++ rest)) = c :: cString (r ++ rest) := by
    unfold cString
    rw [List.takeWhile_cons, if_pos (by simpa using hc'.1)]
  rw [hcs] at hlong'
  obtain ⟨n, d, h1, h2, h3⟩ := scanUnsigned_longest neg hlong'
  refine ⟨?_, n, d, by rw [hs, h1], h2, by rw [h3]; rfl⟩
  rintro rfl
  obtain ⟨ws, sign, e, hws, hsign⟩ := hafter
  cases ws with
  | cons a ws =>
    have := hws a (by simp)
    simp at e
    rw [← e.1] at this
    revert this; decide
  | nil =>
    rcases hsign with ⟨-, rfl⟩ | ⟨-, rfl | rfl⟩
    · simp at e
    · simp at e
      exact hc'.2.2.2.2 e.1.symm
    · simp at e

theorem Bridge.read_denotes {T : Type} [Binary T] [TextTraits T] {F : Fmt} {of : Nat → T} (B : Bridge T F of) {s : List UInt8} {neg : Bool} {q : ℚ}
    (h : Denotes s neg q) :
    ((tooLarge T ≤ |q| ∨ |q| < tooSmall T ∧ ∀ y : T, Finite y → value y ≠ q) →
      (TextTraits.fromText s : Except Err T) = .error .outOfRange) ∧
    (¬ (tooLarge T ≤ |q| ∨ |q| < tooSmall T ∧ ∀ y : T, Finite y → value y ≠ q) →
      ∃ x : T, TextTraits.fromText s = .ok x ∧ IsNearest q x ∧ negative x = neg) := by
  obtain ⟨h1, n, d, h2, h3, rfl⟩ := scan_denotes h
  refine B.read_fraction h3 ?_
  rw [B.fromText]
  unfold Fmt.fromText
  rw [if_neg h1, h2]

/-! ### C67 for all texts -/

/-- The number that a text denotes, decimal or hexadecimal, is read as the nearest floating point number, with the sign of the text; it
is refused with `out_of_range` exactly if it is too large, or too small and not a floating point number itself. -/
theorem C67_read_any (s : List UInt8) (neg : Bool) (q : ℚ) (h : Denotes s neg q) :
    (((tooLarge F32 ≤ |q| ∨ |q| < tooSmall F32 ∧ ∀ y : F32, Finite y → value y ≠ q) →
        (TextTraits.fromText s : Except Err F32) = .error .outOfRange) ∧
      (¬ (tooLarge F32 ≤ |q| ∨ |q| < tooSmall F32 ∧ ∀ y : F32, Finite y → value y ≠ q) →
        ∃ x : F32, TextTraits.fromText s = .ok x ∧ IsNearest q x ∧ negative x = neg)) ∧
    (((tooLarge F64 ≤ |q| ∨ |q| < tooSmall F64 ∧ ∀ y : F64, Finite y → value y ≠ q) →
        (TextTraits.fromText s : Except Err F64) = .error .outOfRange) ∧
      (¬ (tooLarge F64 ≤ |q| ∨ |q| < tooSmall F64 ∧ ∀ y : F64, Finite y → value y ≠ q) →
        ∃ x : F64, TextTraits.fromText s = .ok x ∧ IsNearest q x ∧ negative x = neg)) :=
  ⟨bridge_float.read_denotes h, bridge_double.read_denotes h⟩

/-- Every text that begins with a number has a longest such beginning. -/
theorem longest_exists {body w : List UInt8} {q : ℚ} (h : Literal w q) (hp : w <+: body) : ∃ w' q', LongestLiteral body w' q' := by
  by_contra hno
  have key : ∀ k, ∃ w' q', Literal w' q' ∧ w' <+: body ∧ k ≤ w'.length := by
    intro k
    induction k with
    | zero => exact ⟨w, q, h, hp, Nat.zero_le _⟩
    | succ k ih =>
      obtain ⟨w', q', h1, h2, h3⟩ := ih
      by_contra hn
      apply hno
      refine ⟨w', q', h1, h2, fun w'' q'' h4 h5 => ?_⟩
      by_contra h6
      exact hn ⟨w'', q'', h4, h5, by omega⟩
  obtain ⟨w', q', -, h2, h3⟩ := key (body.length + 1)
  have := h2.length_le
  omega

/-- Every text is of one of four kinds: no number (refused with `invalid_argument`, `C67_rejects`), infinity or NaN (`C67_words`), or a
number (`C67_read_any`). -/
theorem C67_kinds (s : List UInt8) :
    ¬ StartsNumber s ∨ (∃ neg, BeginsWith SpellsInf s neg) ∨ (∃ neg, BeginsWith SpellsNaN s neg) ∨ ∃ neg q, Denotes s neg q := by
  by_cases hs : StartsNumber s
  case neg => exact .inl hs
  refine .inr ?_
  obtain ⟨neg, body, ha, h⟩ := hs
  have number : ∀ w q, Decimal w q → w <+: body → ∃ neg q, Denotes s neg q := fun w q hd hp => by
    obtain ⟨w', q', hl⟩ := longest_exists (.inl hd) hp
    exact ⟨neg, _, body, w', q', ha, hl, rfl⟩
  rcases h with ⟨d, rest, rfl, hd⟩ | ⟨d, rest, rfl, hd⟩ | ⟨w, rest, rfl, hw | hw⟩
  · exact .inr (.inr (number [d] _ ⟨[d], [d], [], [], 0, rfl, ⟨[], rfl, by simpa using hd, by simp, .inr ⟨rfl, rfl⟩⟩, .inl ⟨rfl, rfl⟩, rfl⟩
      ⟨rest, rfl⟩))
  · exact .inr (.inr (number [46, d] _ ⟨[46, d], [], [d], [], 0, rfl, ⟨[46], rfl, by simpa using hd, by simp, .inl rfl⟩,
      .inl ⟨rfl, rfl⟩, rfl⟩ ⟨rest, rfl⟩))
  · exact .inl ⟨neg, w, rest, ha, hw⟩
  · exact .inr (.inl ⟨neg, w, rest, ha, hw⟩)

/-- A text denotes at most one number. -/
theorem C67_denotes_unique {s : List UInt8} {neg neg' : Bool} {q q' : ℚ} (h : Denotes s neg q) (h' : Denotes s neg' q') :
    neg = neg' ∧ q = q' := by
  obtain ⟨-, n, d, h1, -, rfl⟩ := scan_denotes h
  obtain ⟨-, n', d', h1', -, rfl⟩ := scan_denotes h'
  rw [h1] at h1'
  injection h1' with e1 e2 e3
  rw [e1, e2, e3]
  exact ⟨rfl, rfl⟩

/-- What is scanned as a number is denoted. -/
theorem scan_kinds {s : List UInt8} {neg : Bool} {n d : Nat} (h : scanFloat (cString s) = .number neg n d) :
    Denotes s neg (signOf neg * ((n : ℚ) / d)) := by
  rcases C67_kinds s with hk | ⟨neg', w, rest, ha, hw⟩ | ⟨neg', w, rest, ha, hw⟩ | ⟨neg', q, hk⟩
  · rw [← starts_cString, ← scan_nothing, h] at hk; cases hk
  · rw [scan_inf ha hw] at h; cases h
  · rw [scan_nan ha hw] at h; cases h
  · obtain ⟨-, n', d', h1, -, rfl⟩ := scan_denotes hk
    rw [h] at h1
    injection h1 with e1 e2 e3
    subst e1 e2 e3
    exact hk

/-- The decimal numbers of `C67_read` are numbers of the grammar. -/
theorem C67_numeral_denotes {s : List UInt8} {neg : Bool} {q : ℚ} (h : Numeral s neg q) : Denotes s neg q := by
  obtain ⟨-, n, d, h1, -, rfl⟩ := scan_numeral h
  exact scan_kinds h1

/-! ### Examples -/

/-- A hexadecimal text. -/
example : Denotes "-0x1.8p1".toUTF8.toList true (-3) := by
  have h : scanFloat (cString "-0x1.8p1".toUTF8.toList) = .number true 24 8 := by decide +kernel
  have := scan_kinds h
  norm_num [signOf] at this
  exact this

/-- "0x" without digits is the number 0 followed by the letter x; an exponent without digits is none. -/
example : Denotes "0x".toUTF8.toList false 0 ∧ Denotes " 7e+".toUTF8.toList false 7 ∧ Denotes "1.5.2".toUTF8.toList false (3 / 2) := by
  have h1 : scanFloat (cString "0x".toUTF8.toList) = .number false 0 1 := by decide +kernel
  have h2 : scanFloat (cString " 7e+".toUTF8.toList) = .number false 7 1 := by decide +kernel
  have h3 : scanFloat (cString "1.5.2".toUTF8.toList) = .number false 15 10 := by decide +kernel
  have g1 := scan_kinds h1
  have g2 := scan_kinds h2
  have g3 := scan_kinds h3
  norm_num [signOf] at g1 g2 g3
  exact ⟨g1, g2, g3⟩

/-- Read as a `float`, and refused. -/
example : (TextTraits.fromText "-0x1.8p1".toUTF8.toList : Except Err F32) = .ok ⟨0xC0400000⟩ ∧
    (TextTraits.fromText "0x1p128".toUTF8.toList : Except Err F32) = .error .outOfRange := by decide +kernel

/-- The four kinds. -/
example : ¬ StartsNumber "-x".toUTF8.toList ∧ BeginsWith SpellsInf " +Infinity".toUTF8.toList false ∧
    BeginsWith SpellsNaN "-nan".toUTF8.toList true := by
  refine ⟨?_, ⟨"Inf".toUTF8.toList, "inity".toUTF8.toList, ⟨[32], [43], by decide +kernel, by decide, by decide⟩,
    ⟨73, 110, 102, by decide +kernel, by decide, by decide, by decide⟩⟩,
    ⟨"nan".toUTF8.toList, [], ⟨[], [45], by decide +kernel, by decide, by decide⟩, ⟨110, 97, 110, by decide +kernel, by decide, by decide, by decide⟩⟩⟩
  rw [← scan_nothing]
  decide +kernel

end Feat.FloatText
