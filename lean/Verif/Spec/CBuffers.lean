import Verif.Model.CBuffers
/-
What it means that memory holds given values, that a result buffer shows given results, and that a pair of a function
creating results and a function destroying them can be relied upon.  Nothing here refers to how the generated code reads
or writes.
-/
namespace Feat.CBuffers

variable {V α : Type}

/-- Position `i` behind the pointer `p` holds `c`. -/
def At (m : Mem V) (p : Ptr) (i : Nat) (c : Cell V) : Prop :=
  p.block ≠ 0 ∧ ∃ cells, m p.block = some cells ∧ cells[p.off + i]? = some (some c)

/-- The positions behind `p` hold the elements of `xs`, in the sense of `holds`. -/
def IsArray (m : Mem V) (p : Ptr) (holds : Cell V → α → Prop) (xs : List α) : Prop :=
  ∀ i x, xs[i]? = some x → ∃ c, At m p i c ∧ holds c x

/-- An array of values. -/
def Values (m : Mem V) (p : Ptr) (xs : List V) : Prop := IsArray m p (fun c x => c = .datum x) xs

/-- An array of bytes. -/
def Bytes (m : Mem V) (p : Ptr) (bs : List UInt8) : Prop := IsArray m p (fun c b => c = .byte b) bs

/-- A zero-terminated string. -/
def CString (m : Mem V) (p : Ptr) (s : List UInt8) : Prop := 0 ∉ s ∧ Bytes m p (s ++ [0])

/-- An array of strings. -/
def CStrings (m : Mem V) (p : Ptr) (ss : List (List UInt8)) : Prop :=
  IsArray m p (fun c s => ∃ q, c = .ptr q ∧ CString m q s) ss

/-- A pointer to a value, or null for a missing value. -/
def Nullable (m : Mem V) (q : Ptr) : Option V → Prop
  | none => q.block = 0
  | some v => Values m q [v]

/-- A string, or null for a missing string. -/
def NullableString (m : Mem V) (q : Ptr) : Option (List UInt8) → Prop
  | none => q.block = 0
  | some s => CString m q s

/-- An array of sizes. -/
def Sizes (m : Mem V) (p : Ptr) (ns : List Nat) : Prop := IsArray m p (fun c n => c = .size n) ns

/-- A matrix with `rows × cols` elements. -/
def Matrix.Proper (x : Matrix V) : Prop := x.rows ≠ 0 ∧ x.cols ≠ 0 ∧ x.cells.length = x.rows * x.cols

/-- Arrays of columns, rows and elements for a list of matrices. -/
def Matrices (m : Mem V) (cols rows values : Ptr) (xs : List (Matrix V)) : Prop :=
  Sizes m cols (xs.map Matrix.cols) ∧ Sizes m rows (xs.map Matrix.rows) ∧
  IsArray m values (fun c x => ∃ q, c = .ptr q ∧ Values m q x.cells) xs ∧ ∀ x ∈ xs, x.Proper

/-! ### Results -/

/-- The allocator hands out blocks that are not in use. -/
def Heap.Sound (h : Heap V) : Prop := ∀ n m a, h.pick n m = some a → a ≠ 0 ∧ m a = none

/-- A function that creates result buffers, the function that destroys them, for which values they are meant, and when
the outputs show a value. -/
structure Results (V : Type) where
  Value : Type
  Out : Type
  valid : Value → Prop
  emit : Value → M (Heap V) Out
  destroy : Out → M (Heap V) Unit
  shows : Mem V → Out → Value → Prop

/-- The memory without some blocks. -/
def Heap.without (h : Heap V) (own : List Nat) : Heap V :=
  { h with blocks := fun a => if a ∈ own then none else h.blocks a }

/-- Creating results for a valid value succeeds unless an allocation is refused.  It uses some blocks that were free and
changes no other one; as long as these blocks are left alone — whatever happens elsewhere — the outputs show the value, and
destroying them succeeds, releases exactly these blocks and changes nothing else.  If an allocation is refused, the call
fails with `std::bad_alloc`, and blocks in use are unchanged. -/
def Results.Faithful (k : Results V) : Prop :=
  ∀ v, k.valid v → ∀ h : Heap V, h.Sound →
    match k.emit v h with
    | (.ok out, h') =>
      h'.pick = h.pick ∧ h'.refused = h.refused ∧
      ∃ own : List Nat, (∀ a ∈ own, h.blocks a = none ∧ h'.blocks a ≠ none) ∧ (∀ a, a ∉ own → h'.blocks a = h.blocks a) ∧
        (∀ m : Mem V, (∀ a ∈ own, m a = h'.blocks a) → k.shows m out v) ∧
        (∀ g : Heap V, (∀ a ∈ own, g.blocks a = h'.blocks a) → k.destroy out g = (.ok (), g.without own))
    | (.error e, h') =>
      h'.pick = h.pick ∧ e = .badAlloc ∧ h'.refused = true ∧ ∀ a, h.blocks a ≠ none → h'.blocks a = h.blocks a

/-- A refused allocation leaves no buffers behind. -/
def Results.CleanOnFailure (k : Results V) : Prop :=
  ∀ v, k.valid v → ∀ h : Heap V, h.Sound → ∀ e h', k.emit v h = (.error e, h') → h'.blocks = h.blocks

/-- A string result: null for the empty string, else its bytes and a zero. -/
def ShowsString (m : Mem V) (p : Ptr) (s : List UInt8) : Prop :=
  if s = [] then p.block = 0 else Bytes m p (s ++ [0])

/-- An array of numbers and its length: null if there are none. -/
def ShowsItems (m : Mem V) (r : Ptr × Nat) (xs : List V) : Prop :=
  r.2 = xs.length ∧ (r.1.block = 0 ↔ xs = []) ∧ Values m r.1 xs

/-- String results. -/
def stringResults : Results V where
  Value := List UInt8
  Out := Ptr
  valid := fun _ => True
  emit := emitString
  destroy := destroyString
  shows := ShowsString

/-- Messages of errors. -/
def messageResults : Results V where
  Value := List UInt8
  Out := Ptr
  valid := fun _ => True
  emit := emitChars
  destroy := destroyString
  shows := fun m p s => Bytes m p (s ++ [0])

/-- Vectors of numbers. -/
def itemResults : Results V where
  Value := List V
  Out := Ptr × Nat
  valid := fun _ => True
  emit := emitItems
  destroy := destroyItems
  shows := ShowsItems

/-- Several strings. -/
def stringsResults : Results V where
  Value := List (List UInt8)
  Out := Ptr × Nat
  valid := fun _ => True
  emit := emitStrings
  destroy := destroyStrings
  shows := fun m r ss => r.2 = ss.length ∧ (r.1.block = 0 ↔ ss = []) ∧
    IsArray m r.1 (fun c s => ∃ q, c = .ptr q ∧ ShowsString m q s) ss

/-- Several vectors of numbers: pointers, lengths. -/
def rowResults : Results V where
  Value := List (List V)
  Out := Ptr × Ptr × Nat
  valid := fun _ => True
  emit := emitRows
  destroy := destroyRows
  shows := fun m r rows => r.2.2 = rows.length ∧ (r.1.block = 0 ↔ rows = []) ∧ (r.2.1.block = 0 ↔ rows = []) ∧
    Sizes m r.2.1 (rows.map List.length) ∧
    IsArray m r.1 (fun c xs => ∃ q, c = .ptr q ∧ ShowsItems m (q, xs.length) xs) rows

/-- Matrices with at least one element: columns, rows, elements. -/
def matrixResults : Results V where
  Value := Matrix V
  Out := Nat × Nat × Ptr
  valid := Matrix.Proper
  emit := emitMatrix
  destroy := destroyMatrix
  shows := fun m r x => r.1 = x.cols ∧ r.2.1 = x.rows ∧ Values m r.2.2 x.cells

/-- Sparse vectors with at least one entry. -/
def sparseResults : Results V where
  Value := Sparse V
  Out := SparseOut
  valid := fun x => x.size ≠ 0 ∧ x.entries ≠ []
  emit := emitSparse
  destroy := destroySparse
  shows := fun m r x => r.elements = x.size ∧ r.count = x.entries.length ∧
    Values m r.values (x.entries.map Prod.snd) ∧ Sizes m r.indexes (x.entries.map Prod.fst)

/-- Several matrices, each with a nonempty list of strings as its key. -/
def keyedResults : Results V where
  Value := List (List (List UInt8) × Matrix V)
  Out := KeyedOut
  valid := fun xs => ∀ x ∈ xs, x.1 ≠ [] ∧ x.2.Proper
  emit := emitKeyed
  destroy := destroyKeyed
  shows := fun m r xs => r.items = xs.length ∧ (r.keys.block = 0 ↔ xs = []) ∧
    IsArray m r.keys (fun c x => ∃ q, c = .ptr q ∧
      IsArray m q (fun c s => ∃ t, c = .ptr t ∧ Bytes m t (s ++ [0])) x.1) xs ∧
    Sizes m r.keyItems (xs.map (fun x => x.1.length)) ∧
    Sizes m r.cols (xs.map (fun x => x.2.cols)) ∧ Sizes m r.rows (xs.map (fun x => x.2.rows)) ∧
    IsArray m r.cells (fun c x => ∃ q, c = .ptr q ∧ Values m q x.2.cells) xs

/-- The strings of a decomposed date. -/
def labelResults : Results V where
  Value := List UInt8 × List UInt8 × List UInt8 × List UInt8
  Out := Ptr × Ptr × Ptr × Ptr
  valid := fun _ => True
  emit := emitLabels
  destroy := destroyLabels
  shows := fun m r x => ShowsString m r.1 x.1 ∧ ShowsString m r.2.1 x.2.1 ∧ ShowsString m r.2.2.1 x.2.2.1 ∧
    ShowsString m r.2.2.2 x.2.2.2

/-- The names of the countries. -/
def countryResults : Results V where
  Value := List (List UInt8)
  Out := Ptr × Nat
  valid := fun _ => True
  emit := emitCountries
  destroy := destroyCountries
  shows := fun m r ss => r.2 = ss.length ∧ (r.1.block = 0 ↔ ss = []) ∧
    IsArray m r.1 (fun c s => ∃ q, c = .ptr q ∧ Bytes m q (s ++ [0])) ss

/-- Saved transformers (at least one byte). -/
def savedResults : Results V where
  Value := List UInt8
  Out := Ptr × Nat
  valid := fun bs => bs ≠ []
  emit := emitSaved
  destroy := destroySaved
  shows := fun m r bs => r.2 = bs.length ∧ Bytes m r.1 bs

/-- The kinds of results. -/
inductive Kind where
  | string | message | items | strings | rows | matrix | sparse | keyed | labels | countries | saved

/-- All of them. -/
def interfaceResults : Kind → Results V
  | .string => stringResults
  | .message => messageResults
  | .items => itemResults
  | .strings => stringsResults
  | .rows => rowResults
  | .matrix => matrixResults
  | .sparse => sparseResults
  | .keyed => keyedResults
  | .labels => labelResults
  | .countries => countryResults
  | .saved => savedResults

/-! ### Histories of results -/

section
variable {ι : Type} (ks : ι → Results V)

/-- A result that was created and not yet destroyed: its outputs and the value it was created for. -/
structure Outstanding where
  kind : ι
  out : (ks kind).Out
  value : (ks kind).Value

/-- What a caller does: have results created for a value, or destroy one of the outstanding results. -/
inductive Use where
  | create (k : ι) (v : (ks k).Value)
  | destroy (n : Nat)

/-- The memory and the outstanding results. -/
structure World where
  heap : Heap V
  results : List (Outstanding ks)

/-- One call, with its outcome. -/
def World.step (w : World ks) : Use ks → Except Err Unit × World ks
  | .create k v =>
    match (ks k).emit v w.heap with
    | (.ok out, h) => (.ok (), ⟨h, w.results ++ [⟨k, out, v⟩]⟩)
    | (.error e, h) => (.error e, ⟨h, w.results⟩)
  | .destroy n =>
    match w.results[n]? with
    | none => (.ok (), w)
    | some r =>
      match (ks r.kind).destroy r.out w.heap with
      | (x, h) => (x, ⟨h, w.results.eraseIdx n⟩)

/-- Several calls, with their outcomes. -/
def World.run (w : World ks) : List (Use ks) → List (Except Err Unit) × World ks
  | [] => ([], w)
  | u :: us =>
    let r := w.step ks u
    let rs := World.run r.2 us
    (r.1 :: rs.1, rs.2)

/-- Only valid values occur. -/
def Use.Proper : Use ks → Prop
  | .create k v => (ks k).valid v
  | .destroy _ => True
end

end Feat.CBuffers
