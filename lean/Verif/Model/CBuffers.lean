import Verif.Model.Basic
/-
Model of the memory that crosses the C interface: how the generated functions read the arrays that a caller passes to
`Fit`, `FitBuffer` and `Transform`, how `Transform` and `Flush` put results into newly allocated arrays, and how
`DestroyTransformedData` releases them (src/SharedLibrary/GeneratedCode/SharedLibrary_*.cpp,
src/SharedLibrary/SharedLibrary_DateTimeFeaturizerCustom.cpp).

Memory consists of arrays ("blocks") of typed cells.  A pointer is a block and an offset; block 0 is the null pointer.  A
cell that was allocated and not yet written is `none`; reading it, reading or writing outside a block, reading a cell as
another type and releasing anything but the beginning of a live block are undefined behaviour.
-/
namespace Feat.CBuffers

/-- A pointer: block and offset. -/
structure Ptr where
  block : Nat
  off : Nat
  deriving DecidableEq

/-- `nullptr`. -/
def Ptr.null : Ptr := ⟨0, 0⟩

/-- The test `p == nullptr`. -/
def Ptr.isNull (p : Ptr) : Bool := p.block == 0

/-- The contents of a cell: a `char`, a pointer, a `size_t` (or `uint64_t`), or a value of the element type. -/
inductive Cell (V : Type) where
  | byte (b : UInt8)
  | ptr (p : Ptr)
  | size (n : Nat)
  | datum (v : V)

/-- An array. -/
abbrev Block (V : Type) := List (Option (Cell V))

/-- The live arrays. -/
abbrev Mem (V : Type) := Nat → Option (Block V)

/-- The memory together with the allocator: `pick n m` is the block that the `n`-th allocation gets when `m` is allocated,
or `none` when it is refused (`std::bad_alloc`).  `refused` records (for the statements only) that an allocation was
refused. -/
structure Heap (V : Type) where
  blocks : Mem V
  pick : Nat → Mem V → Option Nat
  count : Nat
  refused : Bool

variable {V α : Type}

/-! ### Reading -/

/-- `p[i]`. -/
def load (m : Mem V) (p : Ptr) (i : Nat) : Except Err (Cell V) :=
  match m p.block with
  | none => .error .ub
  | some cells =>
    match cells[p.off + i]? with
    | some (some c) => .ok c
    | _ => .error .ub

/-- `p[i]` where a pointer is expected. -/
def loadPtr (m : Mem V) (p : Ptr) (i : Nat) : Except Err Ptr :=
  match load m p i with
  | .ok (.ptr q) => .ok q
  | .ok _ => .error .ub
  | .error e => .error e

/-- `p[i]` where a `size_t` is expected. -/
def loadSize (m : Mem V) (p : Ptr) (i : Nat) : Except Err Nat :=
  match load m p i with
  | .ok (.size n) => .ok n
  | .ok _ => .error .ub
  | .error e => .error e

/-- `p[i]` where an element is expected. -/
def loadDatum (m : Mem V) (p : Ptr) (i : Nat) : Except Err V :=
  match load m p i with
  | .ok (.datum v) => .ok v
  | .ok _ => .error .ub
  | .error e => .error e

/-- The characters up to the terminating zero in the rest of an array; undefined if there is none. -/
def untilZero : Block V → Except Err (List UInt8)
  | some (.byte b) :: rest =>
    if b = 0 then .ok []
    else match untilZero rest with
      | .ok s => .ok (b :: s)
      | .error e => .error e
  | _ => .error .ub

/-- `std::string(p)`: undefined for a null pointer (`std::logic_error` in libstdc++). -/
def cstring (m : Mem V) (p : Ptr) : Except Err (List UInt8) :=
  match m p.block with
  | none => .error .ub
  | some cells => if p.isNull then .error .ub else untilZero (cells.drop p.off)

/-- The loop `while(buffer.size() < n) { buffer.emplace_back(...*ptr...); ++ptr; }`, from position `i`. -/
def collect (read : Nat → Except Err α) (i : Nat) : Nat → Except Err (List α)
  | 0 => .ok []
  | n + 1 =>
    match read i with
    | .error e => .error e
    | .ok x =>
      match collect read (i + 1) n with
      | .error e => .error e
      | .ok xs => .ok (x :: xs)

/-- The two checks before every array: `ptr == nullptr` and `items == 0`. -/
def checked (p : Ptr) (n : Nat) (k : Except Err α) : Except Err α :=
  if p.isNull then .error .invalidArgument
  else if n = 0 then .error .invalidArgument
  else k

/-! ### Inputs -/

/-- A nullable argument (SharedLibrary_CatImputerFeaturizer.cpp 148): `input != nullptr ? *input : null`. -/
def inNullable (m : Mem V) (p : Ptr) : Except Err (Option V) :=
  if p.isNull then .ok none
  else match loadDatum m p 0 with
    | .ok v => .ok (some v)
    | .error e => .error e

/-- `FitBuffer` of nullable values (SharedLibrary_CatImputerFeaturizer.cpp 168–178). -/
def inNullables (m : Mem V) (p : Ptr) (n : Nat) : Except Err (List (Option V)) :=
  checked p n (collect (fun i =>
    match loadPtr m p i with
    | .ok q => inNullable m q
    | .error e => .error e) 0 n)

/-- `FitBuffer` of plain values (SharedLibrary_OneHotEncoderFeaturizer.cpp 168–173) and the array argument of `Fit` and
`Transform` of the normalizers (SharedLibrary_L1NormalizeFeaturizer.cpp 358–369): the estimator reads `input_ptr[0..n)`. -/
def inValues (m : Mem V) (p : Ptr) (n : Nat) : Except Err (List V) :=
  checked p n (collect (loadDatum m p) 0 n)

/-- A string argument (SharedLibrary_OneHotEncoderFeaturizer.cpp 4542–4548). -/
def inString (m : Mem V) (p : Ptr) : Except Err (List UInt8) :=
  if p.isNull then .error .invalidArgument else cstring m p

/-- A nullable string argument (SharedLibrary_CatImputerFeaturizer.cpp 4431). -/
def inNullableString (m : Mem V) (p : Ptr) : Except Err (Option (List UInt8)) :=
  if p.isNull then .ok none
  else match cstring m p with
    | .ok s => .ok (some s)
    | .error e => .error e

/-- The loop over an array of strings (SharedLibrary_LagLeadOperatorFeaturizer.cpp 146–153, 191–200). -/
def strings (m : Mem V) (p : Ptr) (n : Nat) : Except Err (List (List UInt8)) :=
  collect (fun i =>
    match loadPtr m p i with
    | .ok q => cstring m q
    | .error e => .error e) 0 n

/-- `FitBuffer` of strings (SharedLibrary_OneHotEncoderFeaturizer.cpp 4568–4578) and the key argument of `Fit` and
`Transform` of the grained featurizers (SharedLibrary_LagLeadOperatorFeaturizer.cpp 143–153). -/
def inStrings (m : Mem V) (p : Ptr) (n : Nat) : Except Err (List (List UInt8)) :=
  checked p n (strings m p n)

/-- `FitBuffer` of nullable strings (SharedLibrary_CatImputerFeaturizer.cpp 4451–4461). -/
def inNullableStrings (m : Mem V) (p : Ptr) (n : Nat) : Except Err (List (Option (List UInt8))) :=
  checked p n (collect (fun i =>
    match loadPtr m p i with
    | .ok q => inNullableString m q
    | .error e => .error e) 0 n)

/-- `FitBuffer` of lists of strings (SharedLibrary_ShortGrainDropperFeaturizer.cpp 178–205,
SharedLibrary_LagLeadOperatorFeaturizer.cpp 179–206): an array of arrays and an array of their lengths. -/
def inKeys (m : Mem V) (ps ns : Ptr) (n : Nat) : Except Err (List (List (List UInt8))) :=
  if ps.isNull then .error .invalidArgument
  else if ns.isNull then .error .invalidArgument
  else if n = 0 then .error .invalidArgument
  else collect (fun i =>
    match loadPtr m ps i with
    | .error e => .error e
    | .ok q =>
      if q.isNull then .error .invalidArgument
      else match loadSize m ns i with
        | .error e => .error e
        | .ok k => if k = 0 then .error .invalidArgument else strings m q k) 0 n

/-- `FitBuffer` of keys and values (SharedLibrary_LagLeadOperatorFeaturizer.cpp 179–229). -/
def inKeyed (m : Mem V) (ps ns vs : Ptr) (n : Nat) : Except Err (List (List (List UInt8) × V)) :=
  match inKeys m ps ns n with
  | .error e => .error e
  | .ok keys =>
    match checked vs n (collect (loadDatum m vs) 0 n) with
    | .error e => .error e
    | .ok values => .ok (keys.zip values)

/-- A row-major matrix: `Eigen::Map<RowMajMatrix<T>>(values, rows, cols)`. -/
structure Matrix (V : Type) where
  rows : Nat
  cols : Nat
  cells : List V
  deriving DecidableEq

/-- The matrix argument of `Fit` and `Transform` (SharedLibrary_PCAFeaturizer.cpp 361–374); all its elements are read. -/
def inMatrix (m : Mem V) (cols rows : Nat) (p : Ptr) : Except Err (Matrix V) :=
  if cols = 0 then .error .invalidArgument
  else if rows = 0 then .error .invalidArgument
  else if p.isNull then .error .invalidArgument
  else match collect (loadDatum m p) 0 (rows * cols) with
    | .ok xs => .ok ⟨rows, cols, xs⟩
    | .error e => .error e

/-- The loop over matrices (SharedLibrary_PCAFeaturizer.cpp 179–189, SharedLibrary_ForecastingPivotFeaturizer.cpp
210–220, 416–426). -/
def matrices (m : Mem V) (cols rows values : Ptr) (n : Nat) : Except Err (List (Matrix V)) :=
  collect (fun i =>
    match loadSize m cols i with
    | .error e => .error e
    | .ok c =>
      match loadSize m rows i with
      | .error e => .error e
      | .ok r =>
        match loadPtr m values i with
        | .error e => .error e
        | .ok q => inMatrix m c r q) 0 n

/-- `FitBuffer` of matrices (SharedLibrary_PCAFeaturizer.cpp 170–189) and the list of matrices of `Fit` and `Transform` of
the forecasting pivot (SharedLibrary_ForecastingPivotFeaturizer.cpp 407–426). -/
def inMatrices (m : Mem V) (cols rows values : Ptr) (n : Nat) : Except Err (List (Matrix V)) :=
  if cols.isNull then .error .invalidArgument
  else if rows.isNull then .error .invalidArgument
  else if values.isNull then .error .invalidArgument
  else if n = 0 then .error .invalidArgument
  else matrices m cols rows values n

/-- `FitBuffer` of rows (SharedLibrary_L1NormalizeFeaturizer.cpp 169–186 and likewise L2, Max): `input_items` is the
number of rows *and* the length of every row. -/
def inRows (m : Mem V) (p : Ptr) (n : Nat) : Except Err (List (List V)) :=
  checked p n (collect (fun i =>
    match loadPtr m p i with
    | .error e => .error e
    | .ok q => checked q n (collect (loadDatum m q) 0 n)) 0 n)

/-- `FitBuffer` of lists of matrices (SharedLibrary_ForecastingPivotFeaturizer.cpp 187–228): `input_items` is the number of
lists *and* the length of every list. -/
def inMatrixLists (m : Mem V) (cols rows values : Ptr) (n : Nat) : Except Err (List (List (Matrix V))) :=
  if cols.isNull then .error .invalidArgument
  else if rows.isNull then .error .invalidArgument
  else if values.isNull then .error .invalidArgument
  else if n = 0 then .error .invalidArgument
  else collect (fun i =>
    match loadPtr m cols i with
    | .error e => .error e
    | .ok c =>
      match loadPtr m rows i with
      | .error e => .error e
      | .ok r =>
        match loadPtr m values i with
        | .error e => .error e
        | .ok q => inMatrices m c r q n) 0 n

/-! ### Allocating, writing, releasing -/

/-- `new T[n]`. -/
def newArray (n : Nat) : M (Heap V) Ptr := fun h =>
  match h.pick h.count h.blocks with
  | none => (.error .badAlloc, { h with count := h.count + 1, refused := true })
  | some a =>
    (.ok ⟨a, 0⟩,
      { h with count := h.count + 1, blocks := fun x => if x = a then some (List.replicate n none) else h.blocks x })

/-- `p[i] = c`. -/
def store (p : Ptr) (i : Nat) (c : Cell V) : M (Heap V) Unit := fun h =>
  match h.blocks p.block with
  | none => (.error .ub, h)
  | some cells =>
    if p.off + i < cells.length then
      (.ok (), { h with blocks := fun x => if x = p.block then some (cells.set (p.off + i) (some c)) else h.blocks x })
    else (.error .ub, h)

/-- `std::copy`, `memcpy` and the loops over the elements of one vector: consecutive writes from position `i`. -/
def storeAll (p : Ptr) (i : Nat) : List (Cell V) → M (Heap V) Unit
  | [] => pure ()
  | c :: cs => do
    store p i c
    storeAll p (i + 1) cs

/-- `delete [] p`. -/
def free (p : Ptr) : M (Heap V) Unit := fun h =>
  if p.isNull then (.ok (), h)
  else match h.blocks p.block with
    | none => (.error .ub, h)
    | some _ =>
      if p.off = 0 then (.ok (), { h with blocks := fun x => if x = p.block then none else h.blocks x })
      else (.error .ub, h)

/-- Reading inside a function that also writes. -/
def reading (f : Mem V → Except Err α) : M (Heap V) α := fun h => (f h.blocks, h)

/-- `throw std::invalid_argument(...)` if the condition holds. -/
def refuseIf (b : Bool) : M (Heap V) Unit := fun h => (if b then .error .invalidArgument else .ok (), h)

/-- A statement protected by `std::unique_ptr`s: when it throws, they release their arrays. -/
def guarding (ps : List Ptr) (act : M (Heap V) α) : M (Heap V) α := fun h =>
  match act h with
  | (.ok x, h') => (.ok x, h')
  | (.error e, h') => (.error e, (ps.foldl (fun g p => (free p g).2) h'))

/-- One iteration of the loops over results: the cells `cs` go to position `i` of the arrays `ps`. -/
def storeRow (i : Nat) : List Ptr → List (Cell V) → M (Heap V) Unit
  | p :: ps, c :: cs => do
    store p i c
    storeRow i ps cs
  | _, _ => pure ()

/-- The loops over results that fill several arrays at once.  Simplification: the cells of one iteration are written
together after the allocations of that iteration (the code writes each when it is known). -/
def fillArrays (ps : List Ptr) (body : α → M (Heap V) (List (Cell V))) (i : Nat) : List α → M (Heap V) Unit
  | [] => pure ()
  | x :: xs => do
    let cs ← body x
    storeRow i ps cs
    fillArrays ps body (i + 1) xs

/-! ### Results -/

/-- A new zero-terminated copy of a string (SharedLibrary_LagLeadOperatorFeaturizer.cpp 472–477,
SharedLibrary_Common.cpp 25–30). -/
def emitChars (s : List UInt8) : M (Heap V) Ptr := do
  let p ← newArray (s.length + 1)
  storeAll p 0 (s.map Cell.byte)
  store p s.length (.byte 0)
  pure p

/-- A string result (SharedLibrary_StringFeaturizer.cpp 353–363): null for the empty string. -/
def emitString (s : List UInt8) : M (Heap V) Ptr :=
  if s.isEmpty then pure Ptr.null else emitChars s

/-- Destroying a string result (SharedLibrary_StringFeaturizer.cpp 447–448, SharedLibrary_Common.cpp 37–38). -/
def destroyString (p : Ptr) : M (Heap V) Unit :=
  if p.isNull then pure () else free p

/-- A vector of numbers (SharedLibrary_L1NormalizeFeaturizer.cpp 372–390, also the outputs of
BackwardFillImputerFeaturizer). -/
def emitItems (xs : List V) : M (Heap V) (Ptr × Nat) :=
  if xs.isEmpty then pure (Ptr.null, 0)
  else do
    let p ← newArray xs.length
    storeAll p 0 (xs.map Cell.datum)
    pure (p, xs.length)

/-- Destroying a vector of numbers (SharedLibrary_L1NormalizeFeaturizer.cpp 486–494); the third check there follows from the
other two, here and below. -/
def destroyItems (r : Ptr × Nat) : M (Heap V) Unit := do
  refuseIf (!r.1.isNull && r.2 == 0)
  refuseIf (r.1.isNull && r.2 != 0)
  if r.1.isNull then pure () else free r.1

/-- Several strings (SharedLibrary_BackwardFillImputerFeaturizer.cpp 5226–5254). -/
def emitStrings (ss : List (List UInt8)) : M (Heap V) (Ptr × Nat) :=
  if ss.isEmpty then pure (Ptr.null, 0)
  else do
    let p ← newArray ss.length
    fillArrays [p] (fun s => do let q ← emitString s; pure [.ptr q]) 0 ss
    pure (p, ss.length)

/-- `while(items--) { ...; ++ptr; }`. -/
def forItems (body : Nat → M (Heap V) Unit) (i : Nat) : Nat → M (Heap V) Unit
  | 0 => pure ()
  | n + 1 => do
    body i
    forItems body (i + 1) n

/-- Destroying several strings (SharedLibrary_BackwardFillImputerFeaturizer.cpp 5336–5355). -/
def destroyStrings (r : Ptr × Nat) : M (Heap V) Unit := do
  refuseIf (!r.1.isNull && r.2 == 0)
  refuseIf (r.1.isNull && r.2 != 0)
  if r.1.isNull then pure ()
  else do
    forItems (fun i => do
      let q ← reading (loadPtr · r.1 i)
      destroyString q) 0 r.2
    free r.1

/-- Several vectors of numbers (SharedLibrary_ForecastingPivotFeaturizer.cpp 448–489). -/
def emitRows (rows : List (List V)) : M (Heap V) (Ptr × Ptr × Nat) :=
  if rows.isEmpty then pure (Ptr.null, Ptr.null, 0)
  else do
    let p ← newArray rows.length
    let n ← newArray rows.length
    fillArrays [p, n] (fun xs => do
      let (q, k) ← emitItems xs
      pure [.ptr q, .size k]) 0 rows
    pure (p, n, rows.length)

/-- Destroying several vectors of numbers (SharedLibrary_ForecastingPivotFeaturizer.cpp 585–614). -/
def destroyRows (r : Ptr × Ptr × Nat) : M (Heap V) Unit := do
  refuseIf (!r.1.isNull && r.2.2 == 0)
  refuseIf (r.1.isNull && r.2.2 != 0)
  refuseIf (r.2.1.isNull != r.1.isNull)
  if r.1.isNull then pure ()
  else do
    forItems (fun i => do
      let q ← reading (loadPtr · r.1 i)
      let k ← reading (loadSize · r.2.1 i)
      destroyItems (q, k)) 0 r.2.2
    free r.1
    free r.2.1

/-- A matrix (SharedLibrary_PCAFeaturizer.cpp 377–389, SharedLibrary_AnalyticalRollingWindowFeaturizer.cpp 422–434): columns,
rows, elements. -/
def emitMatrix (x : Matrix V) : M (Heap V) (Nat × Nat × Ptr) := do
  let p ← newArray x.cells.length
  storeAll p 0 (x.cells.map Cell.datum)
  pure (x.cols, x.rows, p)

/-- Destroying a matrix (SharedLibrary_PCAFeaturizer.cpp 485–489). -/
def destroyMatrix (r : Nat × Nat × Ptr) : M (Heap V) Unit := do
  refuseIf (r.2.2.isNull && (r.1 != 0 || r.2.1 != 0))
  refuseIf (!r.2.2.isNull && (r.1 == 0 || r.2.1 == 0))
  if r.2.2.isNull then pure () else free r.2.2

/-- A sparse vector: size, and entries (index and value). -/
structure Sparse (V : Type) where
  size : Nat
  entries : List (Nat × V)

/-- The outputs for a sparse vector: `numElements`, `numValues`, `values`, `indexes`. -/
structure SparseOut where
  elements : Nat
  count : Nat
  values : Ptr
  indexes : Ptr

/-- A sparse vector (SharedLibrary_CountVectorizerFeaturizer.cpp 365–380): two arrays held by `std::unique_ptr` until both
are filled. -/
def emitSparse (x : Sparse V) : M (Heap V) SparseOut := do
  let p ← newArray x.entries.length
  let q ← guarding [p] (newArray x.entries.length)
  fillArrays [p, q] (fun e => pure [.datum e.2, .size e.1]) 0 x.entries
  pure ⟨x.size, x.entries.length, p, q⟩

/-- Destroying a sparse vector (SharedLibrary_CountVectorizerFeaturizer.cpp 485–491). -/
def destroySparse (r : SparseOut) : M (Heap V) Unit := do
  refuseIf (r.elements == 0)
  refuseIf (r.count == 0)
  refuseIf r.values.isNull
  refuseIf r.indexes.isNull
  free r.values
  free r.indexes

/-- The outputs for several results with keys: the key arrays, their lengths, columns, rows and elements. -/
structure KeyedOut where
  keys : Ptr
  keyItems : Ptr
  cols : Ptr
  rows : Ptr
  cells : Ptr
  items : Nat

/-- One iteration for a result with keys (SharedLibrary_LagLeadOperatorFeaturizer.cpp 462–500). -/
def emitKey (x : List (List UInt8) × Matrix V) : M (Heap V) (List (Cell V)) := do
  let q ← newArray x.1.length
  fillArrays [q] (fun s => do let c ← emitChars s; pure [.ptr c]) 0 x.1
  let (c, r, d) ← emitMatrix x.2
  pure [.ptr q, .size x.1.length, .size c, .size r, .ptr d]

/-- Several results with keys (SharedLibrary_LagLeadOperatorFeaturizer.cpp 434–510). -/
def emitKeyed (xs : List (List (List UInt8) × Matrix V)) : M (Heap V) KeyedOut :=
  if xs.isEmpty then pure ⟨Ptr.null, Ptr.null, Ptr.null, Ptr.null, Ptr.null, 0⟩
  else do
    let k ← newArray xs.length
    let n ← newArray xs.length
    let c ← newArray xs.length
    let r ← newArray xs.length
    let d ← newArray xs.length
    fillArrays [k, n, c, r, d] emitKey 0 xs
    pure ⟨k, n, c, r, d, xs.length⟩

/-- One iteration of destroying results with keys (SharedLibrary_LagLeadOperatorFeaturizer.cpp 660–690). -/
def destroyKey (o : KeyedOut) (i : Nat) : M (Heap V) Unit := do
  let q ← reading (loadPtr · o.keys i)
  let n ← reading (loadSize · o.keyItems i)
  let c ← reading (loadSize · o.cols i)
  let r ← reading (loadSize · o.rows i)
  let d ← reading (loadPtr · o.cells i)
  refuseIf (q.isNull && n != 0)
  refuseIf (!q.isNull && n == 0)
  refuseIf (d.isNull && (c != 0 || r != 0))
  refuseIf (!d.isNull && (c == 0 || r == 0))
  (if q.isNull then pure ()
    else do
      forItems (fun j => do
        let s ← reading (loadPtr · q j)
        refuseIf s.isNull
        free s) 0 n
      free q)
  if d.isNull then pure () else free d

/-- Destroying several results with keys (SharedLibrary_LagLeadOperatorFeaturizer.cpp 644–704). -/
def destroyKeyed (o : KeyedOut) : M (Heap V) Unit := do
  refuseIf (!o.keys.isNull && o.items == 0)
  refuseIf (o.keys.isNull && o.items != 0)
  refuseIf (o.keyItems.isNull != o.keys.isNull)
  refuseIf (o.cols.isNull != o.keys.isNull)
  refuseIf (o.rows.isNull != o.keys.isNull)
  refuseIf (o.cells.isNull != o.keys.isNull)
  if o.keys.isNull then pure ()
  else do
    forItems (destroyKey o) 0 o.items
    free o.keys
    free o.keyItems
    free o.cols
    free o.rows
    free o.cells

/-- The four strings of a decomposed date (SharedLibrary_DateTimeFeaturizer.cpp 380–426); its numbers are copied. -/
def emitLabels (x : List UInt8 × List UInt8 × List UInt8 × List UInt8) : M (Heap V) (Ptr × Ptr × Ptr × Ptr) := do
  let month ← emitString x.1
  let amPm ← emitString x.2.1
  let day ← emitString x.2.2.1
  let holiday ← emitString x.2.2.2
  pure (month, amPm, day, holiday)

/-- Destroying the strings of a decomposed date (SharedLibrary_DateTimeFeaturizer.cpp 566–576). -/
def destroyLabels (r : Ptr × Ptr × Ptr × Ptr) : M (Heap V) Unit := do
  destroyString r.1
  destroyString r.2.1
  destroyString r.2.2.1
  destroyString r.2.2.2

/-- The loop that creates the names of the countries (SharedLibrary_DateTimeFeaturizerCustom.cpp 109–115): those already
created are released when it throws. -/
def countryStrings (held : List Ptr) : List (List UInt8) → M (Heap V) (List Ptr)
  | [] => pure []
  | s :: ss => do
    let p ← guarding held (emitChars s)
    let ps ← countryStrings (held ++ [p]) ss
    pure (p :: ps)

/-- `DateTimeFeaturizer_GetSupportedCountries` (SharedLibrary_DateTimeFeaturizerCustom.cpp 81–131) after the lookup of the
countries. -/
def emitCountries (ss : List (List UInt8)) : M (Heap V) (Ptr × Nat) :=
  if ss.isEmpty then pure (Ptr.null, 0)
  else do
    let ps ← countryStrings [] ss
    let p ← guarding ps (newArray ss.length)
    storeAll p 0 (ps.map Cell.ptr)
    pure (p, ss.length)

/-- `DateTimeFeaturizer_DestroyStringBuffers` (SharedLibrary_DateTimeFeaturizerCustom.cpp 148–164). -/
def destroyCountries (r : Ptr × Nat) : M (Heap V) Unit := do
  refuseIf (r.1.isNull && r.2 != 0)
  refuseIf (!r.1.isNull && r.2 == 0)
  if r.1.isNull then pure ()
  else do
    forItems (fun i => do
      let q ← reading (loadPtr · r.1 i)
      refuseIf q.isNull
      free q) 0 r.2
    free r.1

/-- The buffer of `CreateTransformerSaveData` (SharedLibrary_LagLeadOperatorFeaturizer.cpp 375–380). -/
def emitSaved (bs : List UInt8) : M (Heap V) (Ptr × Nat) := do
  let p ← newArray bs.length
  storeAll p 0 (bs.map Cell.byte)
  pure (p, bs.length)

/-- `DestroyTransformerSaveData` (SharedLibrary_Common.cpp 64–67). -/
def destroySaved (r : Ptr × Nat) : M (Heap V) Unit := do
  refuseIf r.1.isNull
  refuseIf (r.2 == 0)
  free r.1

end Feat.CBuffers
