import Verif.Model.DocStats
import Verif.Props.Strings
/-
Specification of the tokens of a document.
-/
namespace Feat
variable {A : Type}

/-- The bytes of a string of ASCII characters. -/
def bytesOf (s : String) : List UInt8 := s.toList.map fun c => UInt8.ofNat c.toNat

/-- The white-space characters: blank, tabulator, line feed, vertical tabulator, form feed, carriage return. -/
def whiteSpace : List UInt8 := [32, 9, 10, 11, 12, 13]

/-- The punctuation characters of ASCII. -/
def punctuation : List UInt8 := bytesOf "!\"#$%&'()*+,-./:;<=>?@[\\]^_`{|}~"

def upperCase : List UInt8 := bytesOf "ABCDEFGHIJKLMNOPQRSTUVWXYZ"
def lowerCase : List UInt8 := bytesOf "abcdefghijklmnopqrstuvwxyz"

/-- A text cut at every separator. -/
def pieces (p : A → Bool) : List A → List (List A)
  | [] => [[]]
  | c :: cs => if p c then [] :: pieces p cs else (c :: (pieces p cs).headD []) :: (pieces p cs).tail

/-- The words of a text: its non-empty pieces. -/
def wordsOf (p : A → Bool) (s : List A) : List (List A) := (pieces p s).filter fun w => !w.isEmpty

/-- A text in which every punctuation character is a blank and of consecutive white-space characters only the first is
kept. -/
def cleaned (s : List UInt8) : List UInt8 :=
  let r := s.map fun c => if c ∈ punctuation then 32 else c
  ((List.range r.length).filter fun i =>
    decide ¬ (0 < i ∧ r.getD (i - 1) 0 ∈ whiteSpace ∧ r.getD i 0 ∈ whiteSpace)).map fun i => r.getD i 0

/-- A document whose only white-space character is the blank. -/
def OnlyBlanks (s : List UInt8) : Prop := ∀ c ∈ s, c ∈ whiteSpace → c = 32

/-- The words of a document, punctuation separating them too. -/
def textWords (s : List UInt8) : List (List UInt8) := wordsOf (fun c => decide (c ∈ whiteSpace ∨ c ∈ punctuation)) s

/-- Words with a blank between neighbours. -/
def joinWords : List (List UInt8) → List UInt8
  | [] => []
  | [w] => w
  | w :: w' :: ws => w ++ 32 :: joinWords (w' :: ws)

end Feat
