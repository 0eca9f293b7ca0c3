import Verif.Model.Basic
/-
Model of Strings.h.  A string is a list of characters, an iterator into it is a position; what a parser passes to its
callback is recorded as a list of pairs of positions.  Predicates have no side effects.
-/
namespace Feat
variable {A : Type}

/-- The characters between two iterators: `std::string(begin, end)`. -/
def between (s : List A) (r : Nat × Nat) : List A := (s.take r.2).drop r.1

/-! ### Trimming -/

/-- `TrimLeft` (Strings.h 296–303): erases up to the first character not satisfying the predicate. -/
def trimLeft (p : A → Bool) (s : List A) : List A := s.drop (s.findIdx fun c => !p c)

/-- `TrimRight` (Strings.h 305–311): `base()` of the reverse iterator found. -/
def trimRight (p : A → Bool) (s : List A) : List A := s.take (s.length - s.reverse.findIdx fun c => !p c)

/-- `Trim` (Strings.h 313–317). -/
def trim (p : A → Bool) (s : List A) : List A := trimRight p (trimLeft p s)

/-! ### Splitting -/

/-- `Details::Parse` (Strings.h 200–228) from the position where the remaining characters start: `skipping` says which of
the two nested loops is running.  In the inner loop (lines 211–212, 219–220) `left` is advanced over separators, and
`right` follows when it ends; in the outer loop (lines 215–225) `right` is advanced. -/
def parseFrom (p : A → Bool) : Bool → List A → Nat → Nat → List (Nat × Nat)
  | true, [], _, _ => []
  | true, c :: cs, left, _ => if p c then parseFrom p true cs (left + 1) (left + 1) else parseFrom p false cs left (left + 1)
  | false, [], left, right => if left ≠ right then [(left, right)] else []
  | false, c :: cs, left, right =>
    if p c then (left, right) :: parseFrom p true cs (right + 1) (right + 1) else parseFrom p false cs left (right + 1)

/-- `Parse` (Strings.h 319–328). -/
def parseWords (p : A → Bool) (s : List A) : List (Nat × Nat) := parseFrom p true s 0 0

/-! ### n-grams -/

/-- `ParseNgramWord` (Strings.h 376–408). -/
def parseNgramWord (p : A → Bool) (lo hi : Nat) (s : List A) : Except Err (List (Nat × Nat)) :=
  let words := parseWords p s
  if words.length = 0 then .error .invalidArgument
  else if lo < 1 ∨ lo > hi ∨ hi > words.length then .error .invalidArgument
  else .ok ((List.range' lo (hi + 1 - lo)).flatMap fun n =>
    (List.range (words.length - n + 1)).map fun i => ((words.getD i (0, 0)).1, (words.getD (i + n - 1) (0, 0)).2))

/-- The inner loop of `ParseNgramCharHelper` (Strings.h 240–245), over the remaining sizes: the first that fits is passed to
the callback, and the loop is left (`break`). -/
def firstNgram (size off : Nat) : List Nat → List (Nat × Nat)
  | [] => []
  | n :: ns => if off + n < size then [(off, off + n)] else firstNgram size off ns

/-- `ParseNgramCharHelper` (Strings.h 230–247) on the positions from `a` to `b`: there are `b - a + 1` iterators. -/
def ngramCharHelper (a b lo hi : Nat) : List (Nat × Nat) :=
  ((List.range (b - a + 1)).flatMap fun off => firstNgram (b - a + 1) off (List.range' lo (hi + 1 - lo))).map
    fun r => (a + r.1, a + r.2)

/-- `ParseNgramChar` (Strings.h 410–420). -/
def parseNgramChar (lo hi : Nat) (s : List A) : Except Err (List (Nat × Nat)) :=
  if lo < 1 ∨ lo > hi ∨ hi > s.length then .error .invalidArgument
  else .ok (ngramCharHelper 0 s.length lo hi)

/-- The separators found by `ParseNgramCharwb` (Strings.h 437–448): the position of each and of the character after it.
`pos` is the position of the first remaining character. -/
def separators (p : A → Bool) : List A → Nat → List (Nat × Nat)
  | [], _ => []
  | c :: cs, pos => if p c then (pos, pos + 1) :: separators p cs (pos + 1) else separators p cs (pos + 1)

/-- `ParseNgramCharwb` (Strings.h 423–465).  With no separator `size() - 1` wraps around, and the first access is out of
bounds. -/
def parseNgramCharwb (p : A → Bool) (lo hi : Nat) (s : List A) : Except Err (List (Nat × Nat)) :=
  let seps := separators p s 0
  if lo < 1 ∨ lo > hi then .error .invalidArgument
  else if seps.length = 0 then .error .ub
  else .ok ((List.range (seps.length - 1)).flatMap fun i =>
    ngramCharHelper (seps.getD i (0, 0)).1 (seps.getD (i + 1) (0, 0)).2 lo hi)

/-! ### Preparing text -/

/-- `std::isspace` in the "C" locale.  For characters above 127 (negative `char`) the C standard leaves the result
undefined; it is false in the usual implementations. -/
def isSpace (c : UInt8) : Bool := c = 32 ∨ (9 ≤ c ∧ c ≤ 13)

/-- `std::ispunct` in the "C" locale (see `isSpace`). -/
def isPunct (c : UInt8) : Bool :=
  (33 ≤ c ∧ c ≤ 47) ∨ (58 ≤ c ∧ c ≤ 64) ∨ (91 ≤ c ∧ c ≤ 96) ∨ (123 ≤ c ∧ c ≤ 126)

/-- `std::tolower` in the "C" locale. -/
def toLowerChar (c : UInt8) : UInt8 := if 65 ≤ c ∧ c ≤ 90 then c + 32 else c

/-- `std::toupper` in the "C" locale. -/
def toUpperChar (c : UInt8) : UInt8 := if 97 ≤ c ∧ c ≤ 122 then c - 32 else c

/-- `ToLower` (Strings.h 284–288). -/
def toLower (s : List UInt8) : List UInt8 := s.map toLowerChar

/-- `ToUpper` (Strings.h 290–294). -/
def toUpper (s : List UInt8) : List UInt8 := s.map toUpperChar

/-- The removal of repeated whitespace (Strings.h 264–277); `prev` is `prevIsSpace`. -/
def removeDuplicateSpace : Bool → List UInt8 → List UInt8
  | _, [] => []
  | prev, c :: cs =>
    if isSpace c && prev then removeDuplicateSpace (isSpace c) cs else c :: removeDuplicateSpace (isSpace c) cs

/-- `ReplaceAndDeDuplicate` with the default predicate (Strings.h 249–280). -/
def replaceAndDeDuplicate (s : List UInt8) : List UInt8 :=
  removeDuplicateSpace false (s.map fun c => if isPunct c then 32 else c)

/-- `StringPadding` (Strings.h 169–184) with `isspace`: `at` throws on the empty string. -/
def stringPadding (s : List UInt8) : Except Err (List UInt8) :=
  match s.head?, s.getLast? with
  | some a, some b =>
    .ok (if !isSpace a && !isSpace b then [32] ++ s ++ [32]
      else if !isSpace a then [32] ++ s
      else if !isSpace b then s ++ [32]
      else s)
  | _, _ => .error .outOfRange

end Feat
