import Verif.Spec.FloatText
/-
The texts of floating point numbers in C (C11 7.22.1.3): the "longest initial subsequence of the input string, starting with the
first non-white-space character, that is of the expected form".
-/
namespace Feat.FloatText

/-- One of the characters '0' to '9', 'a' to 'f', 'A' to 'F', and its value. -/
def hexValue (c : UInt8) : Option Nat :=
  if 48 ≤ c ∧ c ≤ 57 then some (c.toNat - 48)
  else if 97 ≤ c ∧ c ≤ 102 then some (c.toNat - 87)
  else if 65 ≤ c ∧ c ≤ 70 then some (c.toNat - 55)
  else none

/-- The number with the given hexadecimal digits, the most significant one first. -/
def hexNumber : List UInt8 → Nat
  | [] => 0
  | c :: cs => (hexValue c).getD 0 * 16 ^ cs.length + hexNumber cs

/-- An optional exponent: one of the two letters, an optional sign, decimal digits. -/
def Exponent (small capital : UInt8) (w : List UInt8) (e : ℤ) : Prop :=
  w = [] ∧ e = 0 ∨
    ∃ letter esign ds, w = letter :: (esign ++ ds) ∧ (letter = small ∨ letter = capital) ∧ (∀ c ∈ ds, isDigit c = true) ∧ ds ≠ [] ∧
      (esign = [45] ∧ e = -(digitsVal ds : ℤ) ∨ (esign = [] ∨ esign = [43]) ∧ e = digitsVal ds)

/-- Digits with an optional point between, before or after them. -/
def Mantissa (digit : UInt8 → Prop) (w ip fp : List UInt8) : Prop :=
  ∃ point, w = ip ++ point ++ fp ∧ (∀ c ∈ ip ++ fp, digit c) ∧ ip ++ fp ≠ [] ∧ (point = [46] ∨ point = [] ∧ fp = [])

/-- A decimal number without sign: "12", "12.", ".5", "12.5e-3". -/
def Decimal (w : List UInt8) (q : ℚ) : Prop :=
  ∃ m ip fp expo e, w = m ++ expo ∧ Mantissa (isDigit · = true) m ip fp ∧ Exponent 101 69 expo e ∧
    q = ((digitsVal ip : ℚ) + (digitsVal fp : ℚ) / 10 ^ fp.length) * (10 : ℚ) ^ e

/-- A hexadecimal number without sign: "0x", digits, and an exponent of two after the letter p: "0x1.8p-3". -/
def Hexadecimal (w : List UInt8) (q : ℚ) : Prop :=
  ∃ x m ip fp expo e, w = 48 :: x :: (m ++ expo) ∧ (x = 120 ∨ x = 88) ∧
    Mantissa (fun c => (hexValue c).isSome = true) m ip fp ∧ Exponent 112 80 expo e ∧
    q = ((hexNumber ip : ℚ) + (hexNumber fp : ℚ) / 16 ^ fp.length) * (2 : ℚ) ^ e

/-- A number of either form. -/
def Literal (w : List UInt8) (q : ℚ) : Prop := Decimal w q ∨ Hexadecimal w q

/-- `w` is the longest beginning of the text `body` that is a number, and it denotes `q`. -/
def LongestLiteral (body w : List UInt8) (q : ℚ) : Prop :=
  Literal w q ∧ w <+: body ∧ ∀ w' q', Literal w' q' → w' <+: body → w'.length ≤ w.length

/-- After white space and a sign (`neg`: minus) the text begins with a number; the longest such beginning, with the sign, denotes
`q`. -/
def Denotes (s : List UInt8) (neg : Bool) (q : ℚ) : Prop :=
  ∃ body w a, After s neg body ∧ LongestLiteral body w a ∧ q = (if neg then -1 else 1) * a

/-- After white space and a sign (`neg`: minus) the text begins with the word. -/
def BeginsWith (P : List UInt8 → Prop) (s : List UInt8) (neg : Bool) : Prop := ∃ w rest, After s neg (w ++ rest) ∧ P w

end Feat.FloatText
