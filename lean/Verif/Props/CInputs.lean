import Verif.Spec.CBuffers
/-
C73: what a caller's arrays hold is what the estimators and transformers get through the C interface.
-/
namespace Feat.CBuffers
variable {V α β : Type}

theorem load_at {m : Mem V} {p : Ptr} {i : Nat} {c : Cell V} (h : At m p i c) : load m p i = .ok c := by
  obtain ⟨_, cells, h1, h2⟩ := h
  simp only [load, h1, h2]

theorem at_nonnull {m : Mem V} {p : Ptr} {i : Nat} {c : Cell V} (h : At m p i c) : p.isNull = false := by
  simp only [Ptr.isNull, beq_eq_false_iff_ne, ne_eq]
  exact h.1

theorem loadPtr_at {m : Mem V} {p q : Ptr} {i : Nat} (h : At m p i (.ptr q)) : loadPtr m p i = .ok q := by
  simp only [loadPtr, load_at h]

theorem loadSize_at {m : Mem V} {p : Ptr} {i n : Nat} (h : At m p i (.size n)) : loadSize m p i = .ok n := by
  simp only [loadSize, load_at h]

theorem loadDatum_at {m : Mem V} {p : Ptr} {i : Nat} {v : V} (h : At m p i (.datum v)) : loadDatum m p i = .ok v := by
  simp only [loadDatum, load_at h]

/-- The loop collects what each of its reads gives. -/
theorem collect_ok {read : Nat → Except Err α} (xs : List α) :
    ∀ k, (∀ i x, xs[i]? = some x → read (k + i) = .ok x) → collect read k xs.length = .ok xs := by
  induction xs with
  | nil => intro k _; rfl
  | cons x xs ih =>
    intro k h
    have h0 := h 0 x rfl
    rw [Nat.add_zero] at h0
    have h1 := ih (k + 1) (fun i y hy => by
      have := h (i + 1) y (by simpa using hy)
      rwa [show k + 1 + i = k + (i + 1) by omega])
    simp only [List.length_cons, collect, h0, h1]

/-- The loop stops at the first read that fails. -/
theorem collect_error {read : Nat → Except Err α} {e : Err} (n : Nat) :
    ∀ k i, i < n → (∀ j, j < i → ∃ x, read (k + j) = .ok x) → read (k + i) = .error e →
      collect read k n = .error e := by
  induction n with
  | zero => intro k i h; omega
  | succ n ih =>
    intro k i hi hb he
    rcases i with _ | i
    · rw [Nat.add_zero] at he
      simp only [collect, he]
    · obtain ⟨x, hx⟩ := hb 0 (by omega)
      rw [Nat.add_zero] at hx
      have h1 := ih (k + 1) i (by omega) (fun j hj => by
        have := hb (j + 1) (by omega)
        rwa [show k + 1 + j = k + (j + 1) by omega]) (by rwa [show k + 1 + i = k + (i + 1) by omega])
      simp only [collect, hx, h1]

theorem untilZero_ok (s : List UInt8) (hs : (0 : UInt8) ∉ s) :
    ∀ (cells : Block V), (∀ (i : Nat) (b : UInt8), (s ++ [0])[i]? = some b → cells[i]? = some (some (Cell.byte b))) →
      untilZero cells = .ok s := by
  induction s with
  | nil =>
    intro cells h
    have h0 := h 0 0 rfl
    rcases cells with _ | ⟨c, cells⟩
    · cases h0
    · simp only [List.getElem?_cons_zero, Option.some.injEq] at h0
      rw [h0]; simp [untilZero]
  | cons b s ih =>
    intro cells h
    have h0 := h 0 b rfl
    rcases cells with _ | ⟨c, cells⟩
    · cases h0
    · simp only [List.getElem?_cons_zero, Option.some.injEq] at h0
      rw [h0]
      have hb : ¬b = 0 := fun hb => hs (by rw [hb]; exact List.mem_cons_self ..)
      have := ih (fun hm => hs (List.mem_cons_of_mem _ hm)) cells (fun i x hx => by
        have := h (i + 1) x (by simpa using hx)
        simpa using this)
      simp only [untilZero, hb, if_false, this]

/-- Reading a zero-terminated string. -/
theorem cstring_ok {m : Mem V} {p : Ptr} {s : List UInt8} (h : CString m p s) : cstring m p = .ok s := by
  obtain ⟨hs, hb⟩ := h
  have hz := hb s.length 0 (by simp)
  obtain ⟨c, ⟨hn, cells, h1, h2⟩, hc⟩ := hz
  have hnull : p.isNull = false := by simp only [Ptr.isNull, beq_eq_false_iff_ne, ne_eq]; exact hn
  simp only [cstring, h1, hnull]
  rw [if_neg (by decide)]
  refine untilZero_ok s hs _ (fun i b hi => ?_)
  obtain ⟨c', ⟨_, cells', h1', h2'⟩, hc'⟩ := hb i b hi
  rw [h1] at h1'
  cases h1'
  rw [List.getElem?_drop, h2', hc']

theorem isArray_ne {m : Mem V} {p : Ptr} {holds : Cell V → α → Prop} {xs : List α} (h : IsArray m p holds xs)
    (hx : xs ≠ []) : p.isNull = false := by
  rcases xs with _ | ⟨x, xs⟩
  · exact absurd rfl hx
  · obtain ⟨c, hc, _⟩ := h 0 x rfl
    exact at_nonnull hc

theorem checked_ok {p : Ptr} {n : Nat} {k : Except Err α} (hp : p.isNull = false) (hn : n ≠ 0) :
    checked p n k = k := by
  simp only [checked, hp, hn, if_false]
  rfl

theorem length_ne {xs : List α} (h : xs ≠ []) : xs.length ≠ 0 := by
  intro h0; exact h (List.length_eq_zero_iff.1 h0)

theorem values_ok {m : Mem V} {p : Ptr} {xs : List V} (h : Values m p xs) :
    collect (loadDatum m p) 0 xs.length = .ok xs := by
  refine collect_ok xs 0 (fun i x hx => ?_)
  obtain ⟨c, hc, hv⟩ := h i x hx
  rw [Nat.zero_add]
  exact loadDatum_at (hv ▸ hc)

theorem strings_ok {m : Mem V} {p : Ptr} {ss : List (List UInt8)} (h : CStrings m p ss) :
    strings m p ss.length = .ok ss := by
  refine collect_ok ss 0 (fun i s hs => ?_)
  obtain ⟨c, hc, q, hq, hs⟩ := h i s hs
  rw [Nat.zero_add, loadPtr_at (hq ▸ hc)]
  exact cstring_ok hs

theorem nullable_ok {m : Mem V} {q : Ptr} {x : Option V} (h : Nullable m q x) : inNullable m q = .ok x := by
  rcases x with _ | v
  · simp only [inNullable, Ptr.isNull, show q.block = 0 from h]
    rfl
  · obtain ⟨c, hc, hv⟩ := h 0 v rfl
    simp only [inNullable, at_nonnull hc, loadDatum_at (hv ▸ hc)]
    rfl

theorem nullableString_ok {m : Mem V} {q : Ptr} {x : Option (List UInt8)} (h : NullableString m q x) :
    inNullableString m q = .ok x := by
  rcases x with _ | s
  · simp only [inNullableString, Ptr.isNull, show q.block = 0 from h]
    rfl
  · have h1 : CString m q s := h
    obtain ⟨c, hc, _⟩ := h1.2 s.length 0 (by simp)
    simp only [inNullableString, at_nonnull hc, cstring_ok h1]
    rfl

/-- C73, numbers: an array of values is handed on as it is. -/
theorem C73_values {m : Mem V} {p : Ptr} {xs : List V} (h : Values m p xs) (hx : xs ≠ []) :
    inValues m p xs.length = .ok xs := by
  rw [inValues, checked_ok (isArray_ne h hx) (length_ne hx)]
  exact values_ok h

/-- C73, missing values: null pointers become missing values, the others the values they point to. -/
theorem C73_nullables {m : Mem V} {p : Ptr} {xs : List (Option V)}
    (h : IsArray m p (fun c x => ∃ q, c = .ptr q ∧ Nullable m q x) xs) (hx : xs ≠ []) :
    inNullables m p xs.length = .ok xs := by
  rw [inNullables, checked_ok (isArray_ne h hx) (length_ne hx)]
  refine collect_ok xs 0 (fun i x hi => ?_)
  obtain ⟨c, hc, q, hq, hn⟩ := h i x hi
  rw [Nat.zero_add, loadPtr_at (hq ▸ hc)]
  exact nullable_ok hn

/-- C73, strings: every string arrives whole, whatever its bytes. -/
theorem C73_strings {m : Mem V} {p : Ptr} {ss : List (List UInt8)} (h : CStrings m p ss) (hs : ss ≠ []) :
    inStrings m p ss.length = .ok ss := by
  rw [inStrings, checked_ok (isArray_ne h hs) (length_ne hs)]
  exact strings_ok h

/-- C73, one string. -/
theorem C73_string {m : Mem V} {p : Ptr} {s : List UInt8} (h : CString m p s) : inString m p = .ok s := by
  obtain ⟨c, hc, _⟩ := h.2 s.length 0 (by simp)
  simp only [inString, at_nonnull hc, cstring_ok h]
  rfl

/-- C73, missing strings. -/
theorem C73_nullable_strings {m : Mem V} {p : Ptr} {xs : List (Option (List UInt8))}
    (h : IsArray m p (fun c x => ∃ q, c = .ptr q ∧ NullableString m q x) xs) (hx : xs ≠ []) :
    inNullableStrings m p xs.length = .ok xs := by
  rw [inNullableStrings, checked_ok (isArray_ne h hx) (length_ne hx)]
  refine collect_ok xs 0 (fun i x hi => ?_)
  obtain ⟨c, hc, q, hq, hn⟩ := h i x hi
  rw [Nat.zero_add, loadPtr_at (hq ▸ hc)]
  exact nullableString_ok hn

/-- C73, keys: lists of strings of different lengths. -/
theorem C73_keys {m : Mem V} {ps ns : Ptr} {kss : List (List (List UInt8))}
    (h : IsArray m ps (fun c ks => ∃ q, c = .ptr q ∧ CStrings m q ks) kss) (hn : Sizes m ns (kss.map List.length))
    (hk : ∀ ks ∈ kss, ks ≠ []) (hne : kss ≠ []) :
    inKeys m ps ns kss.length = .ok kss := by
  have h1 := isArray_ne h hne
  have h2 := isArray_ne hn (by simpa using hne)
  simp only [inKeys, h1, h2, length_ne hne, if_false]
  rw [if_neg (by decide), if_neg (by decide)]
  refine collect_ok kss 0 (fun i ks hi => ?_)
  obtain ⟨c, hc, q, hq, hs⟩ := h i ks hi
  have hks := hk ks (List.mem_of_getElem? hi)
  obtain ⟨c', hc', hc''⟩ := hn i ks.length (by simp [hi])
  rw [Nat.zero_add, loadPtr_at (hq ▸ hc)]
  simp only [isArray_ne hs hks, loadSize_at (hc'' ▸ hc'), length_ne hks, if_false]
  exact strings_ok hs

/-- C73, keys with values. -/
theorem C73_keyed {m : Mem V} {ps ns vs : Ptr} {xs : List (List (List UInt8) × V)}
    (h : IsArray m ps (fun c x => ∃ q, c = .ptr q ∧ CStrings m q x.1) xs)
    (hn : Sizes m ns (xs.map (fun x => x.1.length))) (hv : Values m vs (xs.map Prod.snd))
    (hk : ∀ x ∈ xs, x.1 ≠ []) (hne : xs ≠ []) :
    inKeyed m ps ns vs xs.length = .ok xs := by
  have h1 := C73_keys (kss := xs.map Prod.fst) (m := m) (ps := ps) (ns := ns)
    (fun i ks hi => by
      rw [List.getElem?_map, Option.map_eq_some_iff] at hi
      obtain ⟨x, hx, rfl⟩ := hi
      exact h i x hx)
    (by rw [List.map_map]; exact hn)
    (fun ks hks => by
      obtain ⟨x, hx, rfl⟩ := List.mem_map.1 hks
      exact hk x hx)
    (by simpa using hne)
  have h2 := values_ok hv
  rw [List.length_map] at h1 h2
  rw [inKeyed, h1, checked_ok (isArray_ne hv (by simpa using hne)) (length_ne hne), h2]
  simp only
  congr 1
  clear h1 h2 hv hn h hk hne
  induction xs with
  | nil => rfl
  | cons x xs ih => simp only [List.map_cons, List.zip_cons_cons, ih]

/-- C73, one matrix. -/
theorem C73_matrix {m : Mem V} {p : Ptr} {x : Matrix V} (hx : x.Proper) (h : Values m p x.cells) :
    inMatrix m x.cols x.rows p = .ok x := by
  have hne : x.cells ≠ [] := by
    intro h0
    have := hx.2.2
    rw [h0] at this
    have := Nat.mul_pos (Nat.pos_of_ne_zero hx.1) (Nat.pos_of_ne_zero hx.2.1)
    simp only [List.length_nil] at *
    omega
  have h1 := values_ok h
  rw [hx.2.2] at h1
  simp only [inMatrix, hx.1, hx.2.1, isArray_ne h hne, h1, if_false]
  rfl

theorem matrices_ok {m : Mem V} {cols rows values : Ptr} {xs : List (Matrix V)} (h : Matrices m cols rows values xs) :
    matrices m cols rows values xs.length = .ok xs := by
  obtain ⟨hc, hr, hv, hp⟩ := h
  refine collect_ok xs 0 (fun i x hi => ?_)
  obtain ⟨c1, h1, h1'⟩ := hc i x.cols (by simp [hi])
  obtain ⟨c2, h2, h2'⟩ := hr i x.rows (by simp [hi])
  obtain ⟨c3, h3, q, h3', hq⟩ := hv i x hi
  rw [Nat.zero_add, loadSize_at (h1' ▸ h1)]
  simp only
  rw [loadSize_at (h2' ▸ h2)]
  simp only
  rw [loadPtr_at (h3' ▸ h3)]
  exact C73_matrix (hp x (List.mem_of_getElem? hi)) hq

/-- C73, several matrices. -/
theorem C73_matrices {m : Mem V} {cols rows values : Ptr} {xs : List (Matrix V)}
    (h : Matrices m cols rows values xs) (hne : xs ≠ []) :
    inMatrices m cols rows values xs.length = .ok xs := by
  have h1 := isArray_ne h.1 (by simpa using hne)
  have h2 := isArray_ne h.2.1 (by simpa using hne)
  have h3 := isArray_ne h.2.2.1 hne
  simp only [inMatrices, h1, h2, h3, length_ne hne, if_false]
  exact matrices_ok h

/-- C73, rows of numbers: the function has one length for both; with at least as many elements as rows, every row is cut
to the number of rows. -/
theorem C73_rows_exact {m : Mem V} {p : Ptr} {rows : List (List V)}
    (h : IsArray m p (fun c xs => ∃ q, c = .ptr q ∧ Values m q xs) rows) (hne : rows ≠ [])
    (hl : ∀ xs ∈ rows, rows.length ≤ xs.length) :
    inRows m p rows.length = .ok (rows.map (List.take rows.length)) := by
  rw [inRows, checked_ok (isArray_ne h hne) (length_ne hne)]
  have := collect_ok (read := fun i =>
    match loadPtr m p i with
    | .error e => .error e
    | .ok q => checked q rows.length (collect (loadDatum m q) 0 rows.length))
    (rows.map (List.take rows.length)) 0 (fun i ys hi => by
      rw [List.getElem?_map, Option.map_eq_some_iff] at hi
      obtain ⟨xs, hxs, rfl⟩ := hi
      have hlen := hl xs (List.mem_of_getElem? hxs)
      have hpos := length_ne hne
      obtain ⟨c, hc, q, hq, hv⟩ := h i xs hxs
      rw [Nat.zero_add, loadPtr_at (hq ▸ hc)]
      simp only
      rw [checked_ok (isArray_ne hv (by intro h0; rw [h0] at hlen; simp only [List.length_nil] at hlen; omega)) hpos]
      have hv' : Values m q (xs.take rows.length) := fun j x hj => by
        rw [List.getElem?_take] at hj
        split at hj
        · exact hv j x hj
        · cases hj
      have := values_ok hv'
      rwa [List.length_take, Nat.min_eq_left hlen] at this)
  rwa [List.length_map] at this

/-- C73, rows of numbers, as far as it is true: when there are as many rows as every row has elements. -/
theorem C73_rows_partial {m : Mem V} {p : Ptr} {rows : List (List V)}
    (h : IsArray m p (fun c xs => ∃ q, c = .ptr q ∧ Values m q xs) rows) (hne : rows ≠ [])
    (hl : ∀ xs ∈ rows, xs.length = rows.length) :
    inRows m p rows.length = .ok rows := by
  rw [C73_rows_exact h hne (fun xs hx => by rw [hl xs hx]; exact Nat.le_refl _)]
  congr 1
  have : rows.map (List.take rows.length) = rows.map id := List.map_congr_left (fun xs hx => by
    rw [← hl xs hx, List.take_length]
    rfl)
  rw [this, List.map_id]

/-- C73 is false for rows: for *every* list of rows of which one is shorter than the number of rows and ends where its
array ends (and the rows before it are long enough), the call reads outside the caller's array. -/
theorem C73_rows_short_refuted {m : Mem V} {p : Ptr} {rows : List (List V)}
    (h : IsArray m p (fun c xs => ∃ q, c = .ptr q ∧ Values m q xs ∧
      ∃ cells, m q.block = some cells ∧ cells.length = q.off + xs.length) rows)
    (i : Nat) (xs : List V) (hi : rows[i]? = some xs) (hs : xs.length < rows.length)
    (hne : xs ≠ []) (hb : ∀ j ys, j < i → rows[j]? = some ys → rows.length ≤ ys.length) :
    inRows m p rows.length = .error .ub := by
  have hlt : i < rows.length := by
    rcases Nat.lt_or_ge i rows.length with hc | hc
    · exact hc
    · rw [List.getElem?_eq_none hc] at hi
      cases hi
  have hrows : rows ≠ [] := by intro h0; rw [h0] at hlt; exact absurd hlt (by simp)
  rw [inRows, checked_ok (isArray_ne h hrows) (length_ne hrows)]
  refine collect_error rows.length 0 i hlt (fun j hj => ?_) ?_
  · rcases hy : rows[j]? with _ | ys
    · rw [List.getElem?_eq_none_iff] at hy; omega
    · obtain ⟨c, hc, q, hq, hv, _⟩ := h j ys hy
      have hlen := hb j ys hj hy
      refine ⟨ys.take rows.length, ?_⟩
      rw [Nat.zero_add, loadPtr_at (hq ▸ hc)]
      simp only
      rw [checked_ok (isArray_ne hv (by intro h0; rw [h0] at hlen; simp only [List.length_nil] at hlen; omega))
        (length_ne hrows)]
      have hv' : Values m q (ys.take rows.length) := fun k x hk => by
        rw [List.getElem?_take] at hk
        split at hk
        · exact hv k x hk
        · cases hk
      have := values_ok hv'
      rwa [List.length_take, Nat.min_eq_left hlen] at this
  · obtain ⟨c, hc, q, hq, hv, cells, hm, hcl⟩ := h i xs hi
    rw [Nat.zero_add, loadPtr_at (hq ▸ hc)]
    simp only
    rw [checked_ok (isArray_ne hv hne) (length_ne hrows)]
    refine collect_error rows.length 0 xs.length hs (fun j hj => ?_) ?_
    · obtain ⟨c', hc', hv'⟩ := hv j xs[j] (by rw [List.getElem?_eq_getElem hj])
      exact ⟨xs[j], by rw [Nat.zero_add]; exact loadDatum_at (hv' ▸ hc')⟩
    · rw [Nat.zero_add]
      simp only [loadDatum, load, hm, List.getElem?_eq_none (l := cells) (i := q.off + xs.length) (by omega)]

/-- C73, lists of matrices, as far as it is true: when every list has as many matrices as there are lists. -/
theorem C73_matrix_lists_partial {m : Mem V} {cols rows values : Ptr} {xss : List (List (Matrix V))}
    (h : ∀ i xs, xss[i]? = some xs → ∃ c r q, At m cols i (.ptr c) ∧ At m rows i (.ptr r) ∧ At m values i (.ptr q) ∧
      Matrices m c r q xs) (hne : xss ≠ []) (hl : ∀ xs ∈ xss, xs.length = xss.length) :
    inMatrixLists m cols rows values xss.length = .ok xss := by
  have h0 : ∃ c r q, At m cols 0 (.ptr c) ∧ At m rows 0 (.ptr r) ∧ At m values 0 (.ptr q) := by
    rcases xss with _ | ⟨xs, xss⟩
    · exact absurd rfl hne
    · obtain ⟨c, r, q, h1, h2, h3, _⟩ := h 0 xs rfl
      exact ⟨c, r, q, h1, h2, h3⟩
  obtain ⟨_, _, _, h1, h2, h3⟩ := h0
  simp only [inMatrixLists, at_nonnull h1, at_nonnull h2, at_nonnull h3, length_ne hne, if_false]
  refine collect_ok xss 0 (fun i xs hi => ?_)
  obtain ⟨c, r, q, h1, h2, h3, hm⟩ := h i xs hi
  have hlen := hl xs (List.mem_of_getElem? hi)
  rw [Nat.zero_add, loadPtr_at h1]
  simp only
  rw [loadPtr_at h2]
  simp only
  rw [loadPtr_at h3]
  simp only
  rw [← hlen]
  exact C73_matrices hm (by intro h0; rw [h0] at hlen; exact length_ne hne hlen.symm)

/-- C73: null pointers and empty arrays are refused with `std::invalid_argument`. -/
theorem C73_refused (m : Mem V) (p : Ptr) (n : Nat) (h : p.block = 0 ∨ n = 0) :
    inValues m p n = .error .invalidArgument ∧ inNullables m p n = .error .invalidArgument ∧
    inStrings m p n = .error .invalidArgument ∧ inNullableStrings m p n = .error .invalidArgument ∧
    inRows m p n = .error .invalidArgument := by
  have key : ∀ {γ : Type} (k : Except Err γ), checked p n k = .error .invalidArgument := by
    intro γ k
    rcases h with h | h
    · simp only [checked, Ptr.isNull, h]; rfl
    · simp only [checked, h]; split <;> rfl
  exact ⟨key _, key _, key _, key _, key _⟩

/-! ### Examples: a memory with three rows of two numbers -/

/-- Three rows of two numbers, each in an array of its own. -/
def threeRows : Mem Int := fun a =>
  if a = 1 then some [some (.ptr ⟨2, 0⟩), some (.ptr ⟨3, 0⟩), some (.ptr ⟨4, 0⟩)]
  else if a = 2 then some [some (.datum 1), some (.datum 2)]
  else if a = 3 then some [some (.datum 3), some (.datum 4)]
  else if a = 4 then some [some (.datum 5), some (.datum 6)]
  else none

/-- The array of rows holds three rows of two numbers, … -/
example : IsArray threeRows ⟨1, 0⟩ (fun c xs => ∃ q, c = .ptr q ∧ Values threeRows q xs ∧
    ∃ cells, threeRows q.block = some cells ∧ cells.length = q.off + xs.length) [[1, 2], [3, 4], [5, 6]] := by
  intro i xs hi
  have row : ∀ a x y, threeRows a = some [some (.datum x), some (.datum y)] → a ≠ 0 → Values threeRows ⟨a, 0⟩ [x, y] := by
    intro a x y ha h0 j v hj
    refine ⟨.datum v, ⟨h0, _, ha, ?_⟩, rfl⟩
    rcases j with _ | _ | j
    · simp at hj; simp [hj]
    · simp at hj; simp [hj]
    · simp at hj
  rcases i with _ | _ | _ | i
  · simp at hi
    exact ⟨_, ⟨by decide, _, rfl, rfl⟩, ⟨2, 0⟩, rfl, hi ▸ row 2 1 2 rfl (by decide), _, rfl, by rw [← hi]; rfl⟩
  · simp at hi
    exact ⟨_, ⟨by decide, _, rfl, rfl⟩, ⟨3, 0⟩, rfl, hi ▸ row 3 3 4 rfl (by decide), _, rfl, by rw [← hi]; rfl⟩
  · simp at hi
    exact ⟨_, ⟨by decide, _, rfl, rfl⟩, ⟨4, 0⟩, rfl, hi ▸ row 4 5 6 rfl (by decide), _, rfl, by rw [← hi]; rfl⟩
  · simp at hi

/-- … which the function cannot read; it does read the first two rows when told that there are two. -/
example : inRows threeRows ⟨1, 0⟩ 3 = .error .ub ∧ inRows threeRows ⟨1, 0⟩ 2 = .ok [[1, 2], [3, 4]] := ⟨rfl, rfl⟩

/-- Strings and missing values: "ab", "" and null; the second string shares the terminating zero of the first. -/
def someStrings : Mem Int := fun a =>
  if a = 1 then some [some (.ptr ⟨2, 0⟩), some (.ptr ⟨2, 2⟩), some (.ptr ⟨0, 0⟩)]
  else if a = 2 then some [some (.byte 97), some (.byte 98), some (.byte 0)]
  else none

example : inNullableStrings someStrings ⟨1, 0⟩ 3 = .ok [some [97, 98], some [], none] ∧
    inStrings someStrings ⟨1, 0⟩ 2 = .ok [[97, 98], []] ∧ inStrings someStrings ⟨1, 0⟩ 3 = .error .ub := ⟨rfl, rfl, rfl⟩

end Feat.CBuffers
