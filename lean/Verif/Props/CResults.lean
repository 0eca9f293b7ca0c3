import Verif.Proofs.CResults
/-
C74: the buffers that the C interface hands out show the results, and destroying them releases exactly these buffers.
-/
namespace Feat.CBuffers
variable {V α β : Type} {cl : Bool}

theorem isNull_mk {a : Nat} (h : a ≠ 0) : (Ptr.mk a 0).isNull = false := by simp [Ptr.isNull, h]

theorem isNull_null : Ptr.null.isNull = true := rfl

theorem bytes_chars {m : Mem V} {a : Nat} {s : List UInt8} (h0 : a ≠ 0) (h : m a = some (chars s)) :
    Bytes m ⟨a, 0⟩ (s ++ [0]) := array_of_has h0 h (fun _ => rfl)

/-! ### Strings -/

theorem stringR_shows {s : List UInt8} {p : Ptr} {fp : Fp V} (h : StringR s p fp) {m : Mem V} (hm : Has m fp) :
    ShowsString m p s := by
  rcases h with ⟨rfl, rfl, rfl⟩ | ⟨hs, a, h0, rfl, rfl⟩
  · rfl
  · rw [ShowsString, if_neg hs]
    exact bytes_chars h0 (hm _ (List.mem_singleton.2 rfl))

theorem stringR_frees {s : List UInt8} {p : Ptr} {fp : Fp V} (h : StringR s p fp) (K : Fp V) :
    Frees K fp (destroyString p) := by
  rcases h with ⟨rfl, rfl, rfl⟩ | ⟨_, a, h0, rfl, rfl⟩
  · exact Frees.nothing K
  · simp only [destroyString, isNull_mk h0]
    exact Frees.free K _ h0

/-- C74: strings. -/
theorem C74_string : (stringResults : Results V).Faithful ∧ (stringResults : Results V).CleanOnFailure :=
  ⟨faithful_of (cl := false) stringResults StringR (fun s _ => emitString_triple s) (fun _ _ _ _ h _ hm => stringR_shows h hm)
    (fun _ _ _ _ h => stringR_frees h []), clean_of stringResults StringR (fun s _ => emitString_triple s)⟩

/-- C74: the messages of errors. -/
theorem C74_message : (messageResults : Results V).Faithful ∧ (messageResults : Results V).CleanOnFailure := by
  refine ⟨faithful_of (cl := false) messageResults _ (fun s _ => emitChars_triple s) ?_ ?_,
    clean_of messageResults _ (fun s _ => emitChars_triple s)⟩
  · rintro s p fp _ ⟨a, h0, rfl, rfl⟩ m hm
    exact bytes_chars h0 (hm _ (List.mem_singleton.2 rfl))
  · rintro s p fp _ ⟨a, h0, rfl, rfl⟩
    simp only [messageResults, destroyString, isNull_mk h0]
    exact Frees.free [] _ h0

/-! ### Numbers -/

theorem itemsR_shows {xs : List V} {r : Ptr × Nat} {fp : Fp V} (h : ItemsR xs r fp) {m : Mem V} (hm : Has m fp) :
    ShowsItems m r xs := by
  rcases h with ⟨rfl, rfl, rfl⟩ | ⟨hx, a, h0, rfl, rfl⟩
  · exact ⟨rfl, ⟨fun _ => rfl, fun _ => rfl⟩, fun i x hx => by cases hx⟩
  · exact ⟨rfl, ⟨fun h => absurd h h0, fun h => absurd h hx⟩,
      array_of_has h0 (hm _ (List.mem_singleton.2 rfl)) (fun _ => rfl)⟩

theorem itemsR_frees {xs : List V} {r : Ptr × Nat} {fp : Fp V} (h : ItemsR xs r fp) (K : Fp V) :
    Frees K fp (destroyItems r) := by
  rcases h with ⟨rfl, rfl, rfl⟩ | ⟨hx, a, h0, rfl, rfl⟩
  · exact Frees.refuse rfl (Frees.refuse rfl (Frees.nothing K))
  · refine Frees.refuse ?_ (Frees.refuse ?_ ?_)
    · simp [hx]
    · simp [isNull_mk h0]
    · simp only [isNull_mk h0]
      exact Frees.free K _ h0

/-- C74: vectors of numbers. -/
theorem C74_items : (itemResults : Results V).Faithful ∧ (itemResults : Results V).CleanOnFailure :=
  ⟨faithful_of (cl := false) itemResults ItemsR (fun s _ => emitItems_triple s) (fun _ _ _ _ h _ hm => itemsR_shows h hm)
    (fun _ _ _ _ h => itemsR_frees h []), clean_of itemResults ItemsR (fun s _ => emitItems_triple s)⟩

/-- C74: saved transformers. -/
theorem C74_saved : (savedResults : Results V).Faithful ∧ (savedResults : Results V).CleanOnFailure := by
  refine ⟨faithful_of (cl := false) savedResults _ (fun s _ => emitSaved_triple s) ?_ ?_,
    clean_of savedResults _ (fun s _ => emitSaved_triple s)⟩
  · rintro bs r fp _ ⟨a, h0, rfl, rfl⟩ m hm
    exact ⟨rfl, array_of_has h0 (hm _ (List.mem_singleton.2 rfl)) (fun _ => rfl)⟩
  · rintro bs r fp hv ⟨a, h0, rfl, rfl⟩
    refine Frees.refuse (isNull_mk h0) (Frees.refuse ?_ (Frees.free [] _ h0))
    have hb : bs.length ≠ 0 := length_ne hv
    simpa using hb

/-! ### Matrices -/

/-- C74: matrices with at least one element. -/
theorem C74_matrix_partial : (matrixResults : Results V).Faithful ∧ (matrixResults : Results V).CleanOnFailure := by
  refine ⟨faithful_of (cl := false) matrixResults _ (fun s _ => emitMatrix_triple s) ?_ ?_,
    clean_of matrixResults _ (fun s _ => emitMatrix_triple s)⟩
  · rintro x r fp _ ⟨a, h0, rfl, rfl⟩ m hm
    exact ⟨rfl, rfl, array_of_has h0 (hm _ (List.mem_singleton.2 rfl)) (fun _ => rfl)⟩
  · rintro x r fp hv ⟨a, h0, rfl, rfl⟩
    have hv : x.Proper := hv
    refine Frees.refuse ?_ (Frees.refuse ?_ ?_)
    · simp [isNull_mk h0]
    · simp [hv.1, hv.2.1]
    · simp only [isNull_mk h0]
      exact Frees.free [] _ h0

/-- C74: what is missing.  An array is allocated even for a matrix without elements, and destroying such a result is always
refused. -/
theorem C74_empty_matrix_refuted (x : Matrix V) (hx : x.cols = 0 ∨ x.rows = 0) (h : Heap V) (hs : h.Sound)
    (out : Nat × Nat × Ptr) (h' : Heap V) (he : emitMatrix x h = (.ok out, h')) :
    (∃ a, h.blocks a = none ∧ h'.blocks a ≠ none) ∧ ∀ g : Heap V, destroyMatrix out g = (.error .invalidArgument, g) := by
  have hr := emitMatrix_triple (cl := false) x h.blocks h hs (adds_nil _)
  rw [he] at hr
  obtain ⟨_, _, fp, ⟨a, h0, rfl, rfl⟩, had⟩ := hr
  refine ⟨⟨a, (had.fresh a (by simp [addrs])).2, ?_⟩, fun g => ?_⟩
  · rw [had.has (a, _) (List.mem_singleton.2 rfl)]
    simp
  · have e1 : (refuseIf ((Ptr.mk a 0).isNull && (x.cols != 0 || x.rows != 0)) : M (Heap V) Unit) g = (.ok (), g) := by
      simp [refuseIf, isNull_mk h0]
    have e2 : (refuseIf (!(Ptr.mk a 0).isNull && (x.cols == 0 || x.rows == 0)) : M (Heap V) Unit) g
        = (.error .invalidArgument, g) := by
      simp [refuseIf, isNull_mk h0, hx]
    simp only [destroyMatrix]
    rw [M.bind_ok _ e1, M.bind_error _ e2]

/-! ### Lists of strings and of vectors -/

/-- One string in a list. -/
def StringCell (s : List UInt8) (cs : List (Cell V)) (fp : Fp V) : Prop := ∃ q, StringR s q fp ∧ cs = [.ptr q]

/-- The outputs and blocks of several strings. -/
def StringsR (ss : List (List UInt8)) (r : Ptr × Nat) (fp : Fp V) : Prop :=
  (ss = [] ∧ r = (Ptr.null, 0) ∧ fp = []) ∨
  (ss ≠ [] ∧ ∃ a, r = (⟨a, 0⟩, ss.length) ∧ Loop [a] StringCell ss fp)

theorem emitStrings_triple (ss : List (List UInt8)) : Triple false ([] : Fp V) (emitStrings ss) (StringsR ss) := by
  rcases ss with _ | ⟨s, ss⟩
  · exact Triple.pure (Or.inl ⟨rfl, rfl, rfl⟩)
  · refine Triple.bind (newArray_triple _) (fun p fp h => ?_)
    obtain ⟨a, h0, rfl, rfl⟩ := h
    have h1 := fill_new (cl := false) [a] (fun s => do let q ← emitString s; pure [Cell.ptr q]) (StringCell (V := V))
      (by rintro x cs fp ⟨q, _, rfl⟩; rfl) (s :: ss) (fun x _ F => by
        refine Triple.bind ((emitString_triple (cl := false) x).frame F) (fun q fp h => ?_)
        obtain ⟨f, hf, rfl⟩ := h
        exact Triple.pure ⟨f, ⟨q, hf, rfl⟩, rfl⟩)
    refine Triple.bind h1 (fun _ fp h => Triple.pure (Or.inr ⟨by simp, a, rfl, by simpa using h0, h⟩))

/-- C74: several strings. -/
theorem C74_strings : (stringsResults : Results V).Faithful := by
  refine faithful_of stringsResults StringsR (fun s _ => emitStrings_triple s) ?_ ?_
  · rintro ss r fp _ (⟨rfl, rfl, rfl⟩ | ⟨hs, a, rfl, hl⟩) m hm
    · exact ⟨rfl, ⟨fun _ => rfl, fun _ => rfl⟩, fun i x hx => by cases hx⟩
    · refine ⟨rfl, ⟨fun h => absurd h (hl.1 a (by simp)), fun h => absurd h hs⟩, hl.array hm (j := 0) rfl ?_⟩
      rintro s cs g ⟨q, hq, rfl⟩ hg
      exact ⟨.ptr q, rfl, q, rfl, stringR_shows hq hg⟩
  · rintro ss r fp _ (⟨rfl, rfl, rfl⟩ | ⟨hs, a, rfl, h0, rs, hf, rfl⟩)
    · exact Frees.refuse rfl (Frees.refuse rfl (Frees.nothing []))
    · have ha := h0 a (by simp)
      have hn : List.length ss ≠ 0 := length_ne hs
      refine Frees.refuse ?_ (Frees.refuse ?_ ?_)
      · simp [hn]
      · simp [isNull_mk ha]
      · simp only [isNull_mk ha]
        refine Frees.comm (Frees.seq ?_ (Frees.free [] _ ha))
        refine (Frees.forLoop (as := [a]) hf (fun i x r hx hr hR => ?_)).mono (by simp [columns])
        obtain ⟨q, hq, hcs⟩ := hR
        exact Frees.read (fun m hm _ => loadPtr_at (loop_cell h0 hf hm hr (j := 0) rfl (by rw [hcs]; rfl)))
          (stringR_frees hq _)

/-- One vector in a list. -/
def ItemsCell (xs : List V) (cs : List (Cell V)) (fp : Fp V) : Prop :=
  ∃ r, ItemsR xs r fp ∧ cs = [.ptr r.1, .size r.2]

/-- The outputs and blocks of several vectors. -/
def RowsR (rows : List (List V)) (r : Ptr × Ptr × Nat) (fp : Fp V) : Prop :=
  (rows = [] ∧ r = (Ptr.null, Ptr.null, 0) ∧ fp = []) ∨
  (rows ≠ [] ∧ ∃ a b, r = (⟨a, 0⟩, ⟨b, 0⟩, rows.length) ∧ Loop [a, b] ItemsCell rows fp)

theorem emitRows_triple (rows : List (List V)) : Triple false ([] : Fp V) (emitRows rows) (RowsR rows) := by
  rcases rows with _ | ⟨s, ss⟩
  · exact Triple.pure (Or.inl ⟨rfl, rfl, rfl⟩)
  · refine Triple.bind (newArray_triple _) (fun p fp h => ?_)
    obtain ⟨a, h0, rfl, rfl⟩ := h
    refine Triple.bind ((newArray_triple (cl := false) _).frame _) (fun p fp h => ?_)
    obtain ⟨_, ⟨b, h1, rfl, rfl⟩, rfl⟩ := h
    have h2 := fill_new (cl := false) [a, b] (fun xs => do let (q, k) ← emitItems xs; pure [Cell.ptr q, .size k])
      (ItemsCell (V := V)) (by rintro x cs fp ⟨q, _, rfl⟩; rfl) (s :: ss) (fun x _ F => by
        refine Triple.bind ((emitItems_triple (cl := false) x).frame F) (fun q fp h => ?_)
        obtain ⟨f, hf, rfl⟩ := h
        exact Triple.pure ⟨f, ⟨q, hf, rfl⟩, rfl⟩)
    refine Triple.bind h2 (fun _ fp h => Triple.pure (Or.inr ⟨by simp, a, b, rfl, by simpa using ⟨h0, h1⟩, h⟩))

/-- C74: several vectors of numbers. -/
theorem C74_rows : (rowResults : Results V).Faithful := by
  refine faithful_of rowResults RowsR (fun s _ => emitRows_triple s) ?_ ?_
  · rintro ss r fp _ (⟨rfl, rfl, rfl⟩ | ⟨hs, a, b, rfl, hl⟩) m hm
    · exact ⟨rfl, ⟨fun _ => rfl, fun _ => rfl⟩, ⟨fun _ => rfl, fun _ => rfl⟩,
        fun i x hx => by simp at hx, fun i x hx => by simp at hx⟩
    · refine ⟨rfl, ⟨fun h => absurd h (hl.1 a (by simp)), fun h => absurd h hs⟩,
        ⟨fun h => absurd h (hl.1 b (by simp)), fun h => absurd h hs⟩, ?_, ?_⟩
      · refine hl.sizes hm (j := 1) rfl _ ?_
        rintro x cs g ⟨q, hq, rfl⟩
        rcases hq with ⟨rfl, rfl, rfl⟩ | ⟨hx, a, h0, rfl, rfl⟩ <;> rfl
      · refine hl.array hm (j := 0) rfl ?_
        rintro x cs g ⟨q, hq, rfl⟩ hg
        refine ⟨.ptr q.1, rfl, q.1, rfl, ?_⟩
        have := itemsR_shows hq hg
        rw [← this.1]
        exact this
  · rintro ss r fp _ (⟨rfl, rfl, rfl⟩ | ⟨hs, a, b, rfl, h0, rs, hf, rfl⟩)
    · exact Frees.refuse rfl (Frees.refuse rfl (Frees.refuse rfl (Frees.nothing [])))
    · have ha := h0 a (by simp)
      have hb := h0 b (by simp)
      have hn : List.length ss ≠ 0 := length_ne hs
      refine Frees.refuse ?_ (Frees.refuse ?_ (Frees.refuse ?_ ?_))
      · simp [hn]
      · simp [isNull_mk ha]
      · simp [isNull_mk ha, isNull_mk hb]
      · simp only [isNull_mk ha]
        refine Frees.comm (Frees.seq ?_ (Frees.seq (F := [_]) (G := [_]) (Frees.free _ _ ha) (Frees.free [] _ hb)))
        refine (Frees.forLoop (as := [a, b]) hf (fun i x r hx hr hR => ?_)).mono (by simp [columns])
        obtain ⟨q, hq, hcs⟩ := hR
        refine Frees.read (fun m hm _ => loadPtr_at (loop_cell h0 hf hm hr (j := 0) rfl (by rw [hcs]; rfl))) ?_
        exact Frees.read (fun m hm _ => loadSize_at (loop_cell h0 hf hm hr (j := 1) rfl (by rw [hcs]; rfl)))
          (itemsR_frees hq _)

/-! ### Results with keys -/

/-- One string of a key. -/
def CharsCell (s : List UInt8) (cs : List (Cell V)) (fp : Fp V) : Prop :=
  ∃ a, a ≠ 0 ∧ cs = [.ptr ⟨a, 0⟩] ∧ fp = [(a, chars s)]

/-- One result with its key. -/
def KeyCell (x : List (List UInt8) × Matrix V) (cs : List (Cell V)) (fp : Fp V) : Prop :=
  ∃ q f d, Loop [q] CharsCell x.1 f ∧ d ≠ 0 ∧
    cs = [.ptr ⟨q, 0⟩, .size x.1.length, .size x.2.cols, .size x.2.rows, .ptr ⟨d, 0⟩] ∧
    fp = f ++ [(d, x.2.cells.map (fun v => some (Cell.datum v)))]

/-- The outputs and blocks of several results with keys. -/
def KeyedR (xs : List (List (List UInt8) × Matrix V)) (r : KeyedOut) (fp : Fp V) : Prop :=
  (xs = [] ∧ r = ⟨Ptr.null, Ptr.null, Ptr.null, Ptr.null, Ptr.null, 0⟩ ∧ fp = []) ∨
  (xs ≠ [] ∧ ∃ k n c w d, r = ⟨⟨k, 0⟩, ⟨n, 0⟩, ⟨c, 0⟩, ⟨w, 0⟩, ⟨d, 0⟩, xs.length⟩ ∧ Loop [k, n, c, w, d] KeyCell xs fp)

theorem emitKey_triple (x : List (List UInt8) × Matrix V) : Triple false ([] : Fp V) (emitKey x) (KeyCell x) := by
  refine Triple.bind (newArray_triple _) (fun p fp h => ?_)
  obtain ⟨a, h0, rfl, rfl⟩ := h
  have h2 := fill_new (cl := false) [a] (fun s => do let c ← emitChars s; pure [Cell.ptr c])
    (CharsCell (V := V)) (by rintro x cs fp ⟨q, _, rfl, _⟩; rfl) x.1 (fun s _ F => by
      refine Triple.bind ((emitChars_triple (cl := false) s).frame F) (fun q fp h => ?_)
      obtain ⟨f, ⟨b, hb, rfl, rfl⟩, rfl⟩ := h
      exact Triple.pure ⟨_, ⟨b, hb, rfl, rfl⟩, rfl⟩)
  refine Triple.bind h2 (fun _ fp h => ?_)
  refine Triple.bind ((emitMatrix_triple (cl := false) x.2).frame fp) (fun r fp' h' => ?_)
  obtain ⟨f, ⟨d, hd, rfl, rfl⟩, rfl⟩ := h'
  exact Triple.pure ⟨a, fp, d, ⟨by simpa using h0, h⟩, hd, rfl, rfl⟩

theorem emitKeyed_triple (xs : List (List (List UInt8) × Matrix V)) :
    Triple false ([] : Fp V) (emitKeyed xs) (KeyedR xs) := by
  rcases xs with _ | ⟨x, xs⟩
  · exact Triple.pure (Or.inl ⟨rfl, rfl, rfl⟩)
  · refine Triple.bind (newArray_triple _) (fun p fp h => ?_)
    obtain ⟨k, hk, rfl, rfl⟩ := h
    refine Triple.bind ((newArray_triple (cl := false) _).frame _) (fun p fp h => ?_)
    obtain ⟨_, ⟨n, hn, rfl, rfl⟩, rfl⟩ := h
    refine Triple.bind ((newArray_triple (cl := false) _).frame _) (fun p fp h => ?_)
    obtain ⟨_, ⟨c, hc, rfl, rfl⟩, rfl⟩ := h
    refine Triple.bind ((newArray_triple (cl := false) _).frame _) (fun p fp h => ?_)
    obtain ⟨_, ⟨w, hw, rfl, rfl⟩, rfl⟩ := h
    refine Triple.bind ((newArray_triple (cl := false) _).frame _) (fun p fp h => ?_)
    obtain ⟨_, ⟨d, hd, rfl, rfl⟩, rfl⟩ := h
    have h2 := fill_new (cl := false) [k, n, c, w, d] emitKey
      (KeyCell (V := V)) (by rintro x cs fp ⟨_, _, _, _, _, rfl, _⟩; rfl) (x :: xs)
      (fun y _ F => (emitKey_triple y).frame F)
    refine Triple.bind h2 (fun _ fp h => Triple.pure (Or.inr ⟨by simp, k, n, c, w, d, rfl, ?_, h⟩))
    simpa using ⟨hk, hn, hc, hw, hd⟩

theorem keyCell_frees {x : List (List UInt8) × Matrix V} {q d : Nat} {f : Fp V} (hl : Loop [q] CharsCell x.1 f)
    (hd : d ≠ 0) (b : Block V) (K : Fp V) :
    Frees K (f ++ [(d, b)]) ((do
      forItems (fun j => do
        let s ← reading (loadPtr · ⟨q, 0⟩ j)
        refuseIf s.isNull
        free s) 0 x.1.length
      free ⟨q, 0⟩) >>= fun _ => free ⟨d, 0⟩) := by
  obtain ⟨h0, rs, hf, rfl⟩ := hl
  have hq := h0 q (by simp)
  refine Frees.seq ?_ (Frees.free _ _ hd)
  refine Frees.mono (K := []) (Frees.comm (Frees.seq ?_ (Frees.free [] _ hq))) (by simp)
  refine (Frees.forLoop (as := [q]) hf (fun i s r hx hr hR => ?_)).mono (by simp [columns])
  obtain ⟨c, hc, hcs, hfp⟩ := hR
  refine Frees.read (fun m hm _ => loadPtr_at (loop_cell h0 hf hm hr (j := 0) rfl (by rw [hcs]; rfl))) ?_
  refine Frees.refuse (isNull_mk hc) ?_
  rw [hfp]
  exact Frees.free _ _ hc

/-- C74: several results with keys. -/
theorem C74_keyed_partial : (keyedResults : Results V).Faithful := by
  refine faithful_of keyedResults KeyedR (fun s _ => emitKeyed_triple s) ?_ ?_
  · rintro xs r fp _ (⟨rfl, rfl, rfl⟩ | ⟨hs, k, n, c, w, d, rfl, hl⟩) m hm
    · exact ⟨rfl, ⟨fun _ => rfl, fun _ => rfl⟩, fun i x hx => by simp at hx, fun i x hx => by simp at hx,
        fun i x hx => by simp at hx, fun i x hx => by simp at hx, fun i x hx => by simp at hx⟩
    · refine ⟨rfl, ⟨fun h => absurd h (hl.1 k (by simp)), fun h => absurd h hs⟩, hl.array hm (j := 0) rfl ?_,
        hl.sizes hm (j := 1) rfl _ ?_, hl.sizes hm (j := 2) rfl _ ?_, hl.sizes hm (j := 3) rfl _ ?_,
        hl.array hm (j := 4) rfl ?_⟩
      · rintro x cs g ⟨q, f, d, hq, hd, rfl, rfl⟩ hg
        refine ⟨_, rfl, ⟨q, 0⟩, rfl, hq.array (hg.sub (List.subset_append_left _ _)) (j := 0) rfl ?_⟩
        rintro s cs g ⟨a, h0, rfl, rfl⟩ hg
        exact ⟨_, rfl, ⟨a, 0⟩, rfl, bytes_chars h0 (hg _ (List.mem_singleton.2 rfl))⟩
      · rintro x cs g ⟨q, f, d, hq, hd, rfl, rfl⟩; rfl
      · rintro x cs g ⟨q, f, d, hq, hd, rfl, rfl⟩; rfl
      · rintro x cs g ⟨q, f, d, hq, hd, rfl, rfl⟩; rfl
      · rintro x cs g ⟨q, f, d, hq, hd, rfl, rfl⟩ hg
        exact ⟨_, rfl, ⟨d, 0⟩, rfl, array_of_has hd (hg _ (List.mem_append_right _ (List.mem_singleton.2 rfl)))
          (fun _ => rfl)⟩
  · rintro (xs : List (List (List UInt8) × Matrix V)) r fp hv
      (⟨rfl, rfl, rfl⟩ | ⟨hs, k, n, c, w, d, rfl, h0, rs, hf, rfl⟩)
    · exact Frees.refuse rfl (Frees.refuse rfl (Frees.refuse rfl (Frees.refuse rfl (Frees.refuse rfl (Frees.refuse rfl
        (Frees.nothing []))))))
    · have hk := h0 k (by simp)
      have hn := h0 n (by simp)
      have hc := h0 c (by simp)
      have hw := h0 w (by simp)
      have hd := h0 d (by simp)
      have hl : List.length xs ≠ 0 := length_ne hs
      have hv : ∀ x ∈ xs, x.1 ≠ [] ∧ x.2.Proper := hv
      refine Frees.refuse ?_ (Frees.refuse ?_ (Frees.refuse ?_ (Frees.refuse ?_ (Frees.refuse ?_ (Frees.refuse ?_ ?_)))))
      · simp [hl]
      · simp [isNull_mk hk]
      · simp [isNull_mk hk, isNull_mk hn]
      · simp [isNull_mk hk, isNull_mk hc]
      · simp [isNull_mk hk, isNull_mk hw]
      · simp [isNull_mk hk, isNull_mk hd]
      · simp only [isNull_mk hk]
        refine Frees.comm (Frees.seq ?_ (Frees.seq (F := [_]) (G := [_, _, _, _]) (Frees.free _ _ hk)
          (Frees.seq (F := [_]) (G := [_, _, _]) (Frees.free _ _ hn)
          (Frees.seq (F := [_]) (G := [_, _]) (Frees.free _ _ hc)
          (Frees.seq (F := [_]) (G := [_]) (Frees.free _ _ hw) (Frees.free [] _ hd))))))
        refine (Frees.forLoop (as := [k, n, c, w, d]) hf (fun i x r hx hr hR => ?_)).mono (by simp [columns])
        obtain ⟨q, f, e, hq, he, hcs, hfp⟩ := hR
        obtain ⟨hx1, hx2⟩ := hv x (List.mem_of_getElem? hx)
        have hq0 := hq.1 q (by simp)
        have hl1 : x.1.length ≠ 0 := length_ne hx1
        refine Frees.read (fun m hm _ => loadPtr_at (loop_cell h0 hf hm hr (j := 0) rfl (by rw [hcs]; rfl))) ?_
        refine Frees.read (fun m hm _ => loadSize_at (loop_cell h0 hf hm hr (j := 1) rfl (by rw [hcs]; rfl))) ?_
        refine Frees.read (fun m hm _ => loadSize_at (loop_cell h0 hf hm hr (j := 2) rfl (by rw [hcs]; rfl))) ?_
        refine Frees.read (fun m hm _ => loadSize_at (loop_cell h0 hf hm hr (j := 3) rfl (by rw [hcs]; rfl))) ?_
        refine Frees.read (fun m hm _ => loadPtr_at (loop_cell h0 hf hm hr (j := 4) rfl (by rw [hcs]; rfl))) ?_
        refine Frees.refuse ?_ (Frees.refuse ?_ (Frees.refuse ?_ (Frees.refuse ?_ ?_)))
        · simp [isNull_mk hq0]
        · simp [hl1]
        · simp [isNull_mk he]
        · simp [hx2.1, hx2.2.1]
        · simp only [isNull_mk hq0, isNull_mk he]
          rw [hfp]
          exact keyCell_frees hq he _ _

/-! ### Decomposed dates -/

/-- C74: the strings of a decomposed date. -/
theorem C74_labels : (labelResults : Results V).Faithful := by
  refine faithful_of (cl := false) labelResults (fun x r fp => ∃ f1 f2 f3 f4, StringR x.1 r.1 f1 ∧ StringR x.2.1 r.2.1 f2 ∧
    StringR x.2.2.1 r.2.2.1 f3 ∧ StringR x.2.2.2 r.2.2.2 f4 ∧ fp = f1 ++ (f2 ++ (f3 ++ f4))) (fun x _ => ?_) ?_ ?_
  · refine Triple.bind (emitString_triple _) (fun p1 f1 h1 => ?_)
    refine Triple.bind ((emitString_triple (cl := false) _).frame _) (fun p2 fp h => ?_)
    obtain ⟨f2, h2, rfl⟩ := h
    refine Triple.bind ((emitString_triple (cl := false) _).frame _) (fun p3 fp h => ?_)
    obtain ⟨f3, h3, rfl⟩ := h
    refine Triple.bind ((emitString_triple (cl := false) _).frame _) (fun p4 fp h => ?_)
    obtain ⟨f4, h4, rfl⟩ := h
    exact Triple.pure ⟨f1, f2, f3, f4, h1, h2, h3, h4, by simp⟩
  · rintro x r fp _ ⟨f1, f2, f3, f4, h1, h2, h3, h4, rfl⟩ m hm
    refine ⟨stringR_shows h1 (hm.sub ?_), stringR_shows h2 (hm.sub ?_), stringR_shows h3 (hm.sub ?_),
      stringR_shows h4 (hm.sub ?_)⟩ <;> intro ab hab <;> simp [hab]
  · rintro x r fp _ ⟨f1, f2, f3, f4, h1, h2, h3, h4, rfl⟩
    exact Frees.seq (stringR_frees h1 _) (Frees.seq (stringR_frees h2 _) (Frees.seq (stringR_frees h3 _)
      (stringR_frees h4 _)))

/-! ### Results protected by `std::unique_ptr` -/

theorem release_all (F : Fp V) : ∀ h : Heap V, (addrs F).Nodup → (∀ a ∈ addrs F, a ≠ 0) → Has h.blocks F →
    ((addrs F).map (fun a => Ptr.mk a 0)).foldl (fun g p => (free p g).2) h = h.without (addrs F) := by
  induction F with
  | nil => intro h _ _ _; exact (without_nil h).symm
  | cons ab F ih =>
    intro h hn h0 hh
    have hn' : ab.1 ∉ addrs F ∧ (addrs F).Nodup := List.nodup_cons.1 hn
    have e : free ⟨ab.1, 0⟩ h = (.ok (), h.without [ab.1]) :=
      Frees.free [] ab.2 (h0 ab.1 (by simp [addrs])) h (by simp [addrs]) (by simp [addrs]) (by intro _ h; cases h)
        (hh.sub (by simp))
    have := ih (h.without [ab.1]) hn'.2 (fun a ha => h0 a (by simp only [addrs, List.map_cons] at ha ⊢; exact List.mem_cons_of_mem _ ha))
      (has_without (F := [ab]) (hh.sub (by simp)) (fun a ha hab => by
        simp only [addrs, List.map_cons, List.map_nil, List.mem_singleton] at hab
        exact hn'.1 (hab ▸ ha)))
    show ((addrs F).map (fun a => Ptr.mk a 0)).foldl (fun g p => (free p g).2) (free ⟨ab.1, 0⟩ h).2 = _
    rw [e, this, without_append]
    rfl

theorem Triple.guarded {act : M (Heap V) α} {Q : α → Fp V → Prop} (F : Fp V) (h : Triple true [] act Q) :
    Triple cl F (guarding ((addrs F).map (fun a => Ptr.mk a 0)) act) (fun x fp => ∃ f, Q x f ∧ fp = F ++ f) := by
  intro m g hs ha
  have hr := h g.blocks g hs (adds_nil _)
  simp only [guarding]
  generalize act g = r at hr ⊢
  obtain ⟨_ | x, h'⟩ := r
  · obtain ⟨r1, r2, r3, _, r5⟩ := hr
    have hb := r5 rfl
    dsimp only
    rw [release_all F h' ha.nodup (fun a h => (ha.fresh a h).1) (fun ab hab => by rw [hb]; exact ha.has ab hab)]
    have hm : (h'.without (addrs F)).blocks = m := by
      funext a
      show (if a ∈ addrs F then none else h'.blocks a) = m a
      by_cases hf : a ∈ addrs F
      · rw [if_pos hf, (ha.fresh a hf).2]
      · rw [if_neg hf, hb, ha.frame a hf]
    exact ⟨r1, r2, r3, fun a _ => by rw [hm], fun _ => hm⟩
  · obtain ⟨hp, hrf, fp, hq, had⟩ := hr
    exact ⟨hp, hrf, F ++ fp, ⟨fp, hq, rfl⟩, adds_append ha had⟩

/-- One entry of a sparse vector. -/
def EntryCell (e : Nat × V) (cs : List (Cell V)) (fp : Fp V) : Prop := cs = [.datum e.2, .size e.1] ∧ fp = []

theorem emitSparse_triple (x : Sparse V) : Triple cl ([] : Fp V) (emitSparse x)
    (fun r fp => ∃ a b, r = ⟨x.size, x.entries.length, ⟨a, 0⟩, ⟨b, 0⟩⟩ ∧ Loop [a, b] EntryCell x.entries fp) := by
  refine Triple.bind (newArray_triple _) (fun p fp h => ?_)
  obtain ⟨a, h0, rfl, rfl⟩ := h
  have hg := Triple.guarded (cl := cl) [(a, List.replicate x.entries.length none)]
    (newArray_triple (cl := true) (V := V) x.entries.length)
  refine Triple.bind hg (fun q fp h => ?_)
  obtain ⟨_, ⟨b, h1, rfl, rfl⟩, rfl⟩ := h
  have h2 := fill_new (cl := cl) [a, b] (fun e : Nat × V => (pure [Cell.datum e.2, .size e.1] : M (Heap V) (List (Cell V))))
    EntryCell (by rintro x cs fp ⟨rfl, _⟩; rfl) x.entries (fun e _ F => Triple.pure ⟨[], ⟨rfl, rfl⟩, by simp⟩)
  exact Triple.bind h2 (fun _ fp h => Triple.pure ⟨a, b, rfl, by simpa using ⟨h0, h1⟩, h⟩)

/-- C74: sparse vectors with at least one entry. -/
theorem C74_sparse_partial : (sparseResults : Results V).Faithful ∧ (sparseResults : Results V).CleanOnFailure := by
  refine ⟨faithful_of (cl := false) sparseResults _ (fun s _ => emitSparse_triple s) ?_ ?_,
    clean_of sparseResults _ (fun s _ => emitSparse_triple s)⟩
  · rintro x r fp _ ⟨a, b, rfl, hl⟩ m hm
    refine ⟨rfl, rfl, ?_, hl.sizes hm (j := 1) rfl _ (by rintro e cs g ⟨rfl, _⟩; rfl)⟩
    have h1 : IsArray m ⟨a, 0⟩ (fun c e => c = Cell.datum e.2) x.entries :=
      hl.array hm (j := 0) rfl (by rintro e cs g ⟨rfl, _⟩ _; exact ⟨_, rfl, rfl⟩)
    intro i v hv
    rw [List.getElem?_map] at hv
    rcases he : x.entries[i]? with _ | e
    · rw [he] at hv; cases hv
    · rw [he] at hv
      simp only [Option.map_some, Option.some.injEq] at hv
      obtain ⟨c, hc, hce⟩ := h1 i e he
      exact ⟨c, hc, by rw [hce, hv]⟩
  · rintro x r fp hv ⟨a, b, rfl, h0, rs, hf, rfl⟩
    have hv : x.size ≠ 0 ∧ x.entries ≠ [] := hv
    have hn : x.entries.length ≠ 0 := length_ne hv.2
    refine Frees.refuse ?_ (Frees.refuse ?_ (Frees.refuse (isNull_mk (h0 a (by simp)))
      (Frees.refuse (isNull_mk (h0 b (by simp))) ?_)))
    · simp [hv.1]
    · simp [hn]
    · have hnil : rs.flatMap Prod.snd = [] := by
        rw [List.flatMap_eq_nil_iff]
        intro r hr
        obtain ⟨i, hi⟩ := List.getElem?_of_mem hr
        obtain ⟨e, _, he⟩ := forall₂_get' hf i r hi
        exact he.2
      rw [hnil, List.append_nil]
      exact Frees.seq (F := [_]) (G := [_]) (Frees.free _ _ (h0 a (by simp))) (Frees.free [] _ (h0 b (by simp)))

/-- C74: what is missing.  Destroying a sparse vector without entries is always refused; its two arrays stay allocated. -/
theorem C74_empty_sparse_refuted (n : Nat) (h : Heap V) (hs : h.Sound) (out : SparseOut) (h' : Heap V)
    (he : emitSparse ⟨n, []⟩ h = (.ok out, h')) :
    (∃ a b, a ≠ b ∧ h.blocks a = none ∧ h.blocks b = none ∧ h'.blocks a ≠ none ∧ h'.blocks b ≠ none) ∧
      ∀ g : Heap V, destroySparse out g = (.error .invalidArgument, g) := by
  have hr := emitSparse_triple (cl := false) ⟨n, []⟩ h.blocks h hs (adds_nil _)
  rw [he] at hr
  obtain ⟨_, _, fp, ⟨a, b, rfl, h0, rs, hf, rfl⟩, had⟩ := hr
  have hrs : rs = [] := by cases hf; rfl
  subst hrs
  have hnd := had.nodup
  have hfr := had.fresh
  have hhas := had.has
  simp [columns, addrs] at hnd hfr hhas
  refine ⟨⟨a, b, hnd, hfr.1.2, hfr.2.2, by simp [hhas.1], by simp [hhas.2]⟩, fun g => ?_⟩
  simp only [destroySparse]
  by_cases hn : n = 0
  · have e1 : (refuseIf (n == 0) : M (Heap V) Unit) g = (.error .invalidArgument, g) := by simp [refuseIf, hn]
    rw [M.bind_error _ e1]
  · have e1 : (refuseIf (n == 0) : M (Heap V) Unit) g = (.ok (), g) := by simp [refuseIf, hn]
    have e2 : (refuseIf (([] : List (Nat × V)).length == 0) : M (Heap V) Unit) g = (.error .invalidArgument, g) := by
      simp [refuseIf]
    rw [M.bind_ok _ e1, M.bind_error _ e2]

/-! ### Countries -/

/-- The blocks of some strings. -/
def StringBlocks (ss : List (List UInt8)) (Z : Fp V) : Prop :=
  List.Forall₂ (fun s ab => ab.1 ≠ 0 ∧ ab.2 = chars s) ss Z

theorem countryStrings_triple (ss : List (List UInt8)) : ∀ F : Fp V,
    Triple cl F (countryStrings ((addrs F).map (fun a => Ptr.mk a 0)) ss)
      (fun ps fp => ∃ Z, StringBlocks ss Z ∧ ps = (addrs Z).map (fun a => Ptr.mk a 0) ∧ fp = F ++ Z) := by
  induction ss with
  | nil => intro F; exact Triple.pure ⟨[], List.Forall₂.nil, rfl, by simp⟩
  | cons s ss ih =>
    intro F
    refine Triple.bind (Triple.guarded F (emitChars_triple s)) (fun p fp h => ?_)
    obtain ⟨_, ⟨a, h0, rfl, rfl⟩, rfl⟩ := h
    have h1 := ih (F ++ [(a, chars s)])
    rw [addrs_append, List.map_append] at h1
    refine Triple.bind h1 (fun ps fp h => ?_)
    obtain ⟨Z, hZ, rfl, rfl⟩ := h
    exact Triple.pure ⟨(a, chars s) :: Z, List.Forall₂.cons ⟨h0, rfl⟩ hZ, rfl, by simp⟩

/-- The outputs and blocks of the names of the countries. -/
def CountriesR (ss : List (List UInt8)) (r : Ptr × Nat) (fp : Fp V) : Prop :=
  (ss = [] ∧ r = (Ptr.null, 0) ∧ fp = []) ∨
  (ss ≠ [] ∧ ∃ a Z, a ≠ 0 ∧ r = (⟨a, 0⟩, ss.length) ∧ StringBlocks ss Z ∧
    fp = Z ++ [(a, Z.map (fun ab => some (Cell.ptr ⟨ab.1, 0⟩)))])

theorem emitCountries_triple (ss : List (List UInt8)) : Triple cl ([] : Fp V) (emitCountries ss) (CountriesR ss) := by
  rcases ss with _ | ⟨s, ss⟩
  · exact Triple.pure (Or.inl ⟨rfl, rfl, rfl⟩)
  · refine Triple.bind (countryStrings_triple (s :: ss) []) (fun ps fp h => ?_)
    obtain ⟨Z, hZ, rfl, hfp⟩ := h
    rw [hfp, List.nil_append]
    refine Triple.bind (Triple.guarded Z (newArray_triple _)) (fun p fp h => ?_)
    obtain ⟨_, ⟨a, h0, rfl, rfl⟩, rfl⟩ := h
    have h1 := storeAll_new (cl := cl) Z [] a (((addrs Z).map (fun a => Ptr.mk a 0)).map Cell.ptr)
    have hl : (((addrs Z).map (fun a => Ptr.mk a 0)).map (Cell.ptr : Ptr → Cell V)).length = (s :: ss).length := by
      rw [List.length_map, List.length_map, addrs, List.length_map]
      exact hZ.length_eq.symm
    rw [hl] at h1
    refine Triple.bind h1 (fun _ fp h => Triple.pure (Or.inr ⟨by simp, a, Z, h0, rfl, hZ, ?_⟩))
    rw [h]
    simp [addrs]

/-- C74: the names of the countries. -/
theorem C74_countries : (countryResults : Results V).Faithful ∧ (countryResults : Results V).CleanOnFailure := by
  refine ⟨faithful_of (cl := false) countryResults CountriesR (fun s _ => emitCountries_triple s) ?_ ?_,
    clean_of countryResults CountriesR (fun s _ => emitCountries_triple s)⟩
  · rintro ss r fp _ (⟨rfl, rfl, rfl⟩ | ⟨hs, a, Z, h0, rfl, hZ, rfl⟩) m hm
    · exact ⟨rfl, ⟨fun _ => rfl, fun _ => rfl⟩, fun i x hx => by cases hx⟩
    · refine ⟨rfl, ⟨fun h => absurd h h0, fun h => absurd h hs⟩, fun i s hi => ?_⟩
      obtain ⟨ab, hab, hb0, hb⟩ := forall₂_get hZ i s hi
      have hmem : ab ∈ Z := List.mem_of_getElem? hab
      refine ⟨.ptr ⟨ab.1, 0⟩, at_of_has h0 (hm _ (List.mem_append_right _ (List.mem_singleton.2 rfl))) ?_, _, rfl,
        bytes_chars hb0 ?_⟩
      · rw [List.getElem?_map, hab]; rfl
      · rw [← hb]; exact hm ab (List.mem_append_left _ hmem)
  · rintro (ss : List (List UInt8)) r fp _ (⟨rfl, rfl, rfl⟩ | ⟨hs, a, Z, h0, rfl, hZ, rfl⟩)
    · exact Frees.refuse rfl (Frees.refuse rfl (Frees.nothing []))
    · have hn : ss.length ≠ 0 := length_ne hs
      refine Frees.refuse ?_ (Frees.refuse ?_ ?_)
      · simp [isNull_mk h0]
      · simp [hn]
      · simp only [isNull_mk h0]
        refine Frees.seq ?_ (Frees.free [] _ h0)
        rw [List.nil_append]
        have h1 := Frees.loop (K := [(a, Z.map (fun ab => some (Cell.ptr ⟨ab.1, 0⟩)))])
          (body := fun i => (do
            let q ← reading (loadPtr · ⟨a, 0⟩ i)
            refuseIf q.isNull
            free q : M (Heap V) Unit)) (Z.map (fun ab => [ab])) 0 (fun j f hj => by
          rw [List.getElem?_map] at hj
          rcases hr : Z[j]? with _ | ab
          · rw [hr] at hj; cases hj
          · rw [hr] at hj
            simp only [Option.map_some, Option.some.injEq] at hj
            obtain ⟨_, _, hb0, _⟩ := forall₂_get' hZ j ab hr
            rw [Nat.zero_add, ← hj]
            refine Frees.read (x := ⟨ab.1, 0⟩) (fun m hm _ => loadPtr_at (at_of_has h0 (hm _ (List.mem_singleton.2 rfl)) ?_))
              (Frees.refuse (isNull_mk hb0) (Frees.free _ _ hb0))
            rw [List.getElem?_map, hr]; rfl)
        rw [List.length_map, ← hZ.length_eq] at h1
        have hflat : ∀ Z : Fp V, (Z.map (fun ab => [ab])).flatten = Z := by
          intro Z
          induction Z with
          | nil => rfl
          | cons z Z ih => simp [ih]
        rw [hflat] at h1
        exact h1

/-! ### Refused allocations -/

/-- An empty memory whose allocator serves one request. -/
def oneAllocation : Heap V :=
  { blocks := fun _ => none
    pick := fun n m => if n = 0 then (match m 1 with | none => some 1 | some _ => none) else none
    count := 0
    refused := false }

theorem oneAllocation_sound : (oneAllocation : Heap V).Sound := by
  intro n m a h
  simp only [oneAllocation] at h
  by_cases hn : n = 0
  · rw [if_pos hn] at h
    rcases h1 : m 1 with _ | b
    · rw [h1] at h
      cases h
      exact ⟨by decide, h1⟩
    · rw [h1] at h; cases h
  · rw [if_neg hn] at h; cases h

/-- C74: what is missing.  When a later allocation is refused, the arrays already allocated for several strings, several
vectors, results with keys and decomposed dates stay allocated, although the call fails. -/
theorem C74_refused_leak_refuted (v : V) : ¬(stringsResults : Results V).CleanOnFailure ∧
    ¬(rowResults : Results V).CleanOnFailure ∧ ¬(keyedResults : Results V).CleanOnFailure ∧
    ¬(labelResults : Results V).CleanOnFailure := by
  refine ⟨fun h => ?_, fun h => ?_, fun h => ?_, fun h => ?_⟩
  · have := congrFun (h [[65]] trivial oneAllocation oneAllocation_sound .badAlloc _ rfl) 1
    cases this
  · have := congrFun (h [[v]] trivial oneAllocation oneAllocation_sound .badAlloc _ rfl) 1
    cases this
  · have := congrFun (h [([[65]], ⟨1, 1, [v]⟩)] (by intro x hx; simp at hx; subst hx; exact ⟨by simp, by simp [Matrix.Proper]⟩)
      oneAllocation oneAllocation_sound .badAlloc _ rfl) 1
    cases this
  · have := congrFun (h ([74], [65], [77], []) trivial oneAllocation oneAllocation_sound .badAlloc _ rfl) 1
    cases this

/-! ### What a C caller reads -/

theorem untilZero_prefix (s : List UInt8) : ∀ (cells : Block V),
    (∀ (i : Nat) (b : UInt8), (s ++ [0])[i]? = some b → cells[i]? = some (some (Cell.byte b))) →
      untilZero cells = .ok (s.takeWhile (· != 0)) := by
  induction s with
  | nil => intro cells h; exact untilZero_ok [] (by simp) cells h
  | cons b s ih =>
    intro cells h
    have h0 := h 0 b rfl
    rcases cells with _ | ⟨c, cells⟩
    · cases h0
    · simp only [List.getElem?_cons_zero, Option.some.injEq] at h0
      rw [h0]
      have := ih cells (fun i x hx => by
        have := h (i + 1) x (by simpa using hx)
        simpa using this)
      by_cases hb : b = 0
      · simp [untilZero, hb]
      · simp [untilZero, hb, this]

/-- C74: a caller that reads a string result as a C string gets it up to its first zero byte. -/
theorem C74_read_back {m : Mem V} {p : Ptr} {s : List UInt8} (h : Bytes m p (s ++ [0])) :
    cstring m p = .ok (s.takeWhile (· != 0)) := by
  obtain ⟨c, ⟨hn, cells, hc, _⟩, _⟩ := h 0 ((s ++ [0])[0]'(by simp)) (List.getElem?_eq_getElem _)
  have hnull : p.isNull = false := by simp [Ptr.isNull, hn]
  simp only [cstring, hc, hnull]
  refine untilZero_prefix s _ (fun i b hb => ?_)
  obtain ⟨c, ⟨_, cells', hc', hget⟩, rfl⟩ := h i b hb
  rw [hc] at hc'
  cases hc'
  rw [List.getElem?_drop]
  exact hget

/-! ### Histories -/

theorem interface_faithful : ∀ k : Kind, (interfaceResults k : Results V).Faithful
  | .string => C74_string.1
  | .message => C74_message.1
  | .items => C74_items.1
  | .strings => C74_strings
  | .rows => C74_rows
  | .matrix => C74_matrix_partial.1
  | .sparse => C74_sparse_partial.1
  | .keyed => C74_keyed_partial
  | .labels => C74_labels
  | .countries => C74_countries.1
  | .saved => C74_saved.1

section
variable {ι : Type} {ks : ι → Results V}

/-- The outstanding results own disjoint blocks; the rest of the memory is as it was, except for what calls that failed left
behind. -/
structure Owned (h0 : Heap V) (w : World ks) (zs : List (Outstanding ks × List Nat)) : Prop where
  pick : w.heap.pick = h0.pick
  results : w.results = zs.map Prod.fst
  live : ∀ z ∈ zs, ∀ a ∈ z.2, h0.blocks a = none ∧ w.heap.blocks a ≠ none
  shows : ∀ z ∈ zs, ∀ m : Mem V, (∀ a ∈ z.2, m a = w.heap.blocks a) → (ks z.1.kind).shows m z.1.out z.1.value
  frees : ∀ z ∈ zs, ∀ g : Heap V, (∀ a ∈ z.2, g.blocks a = w.heap.blocks a) →
    (ks z.1.kind).destroy z.1.out g = (.ok (), g.without z.2)
  disjoint : zs.Pairwise (fun y z => ∀ a ∈ y.2, a ∉ z.2)
  rest : ∀ a, (∀ z ∈ zs, a ∉ z.2) →
    w.heap.blocks a = h0.blocks a ∨ (w.heap.refused = true ∧ h0.blocks a = none)

/-- Changes outside the owned blocks keep the results. -/
theorem Owned.keep {h0 : Heap V} {w w' : World ks} {zs zs' : List (Outstanding ks × List Nat)} (h : Owned h0 w zs)
    (hsub : List.Sublist zs' zs) (hp : w'.heap.pick = w.heap.pick) (hr : w'.results = zs'.map Prod.fst)
    (hb : ∀ z ∈ zs', ∀ a ∈ z.2, w'.heap.blocks a = w.heap.blocks a)
    (hrest : ∀ a, (∀ z ∈ zs', a ∉ z.2) →
      w'.heap.blocks a = h0.blocks a ∨ (w'.heap.refused = true ∧ h0.blocks a = none)) : Owned h0 w' zs' where
  pick := hp.trans h.pick
  results := hr
  live := fun z hz a ha => by
    have := h.live z (hsub.subset hz) a ha
    rw [hb z hz a ha]
    exact this
  shows := fun z hz m hm => h.shows z (hsub.subset hz) m (fun a ha => by rw [hm a ha, hb z hz a ha])
  frees := fun z hz g hg => h.frees z (hsub.subset hz) g (fun a ha => by rw [hg a ha, hb z hz a ha])
  disjoint := h.disjoint.sublist hsub
  rest := hrest

theorem step_destroy {w : World ks} {n : Nat} {r : Outstanding ks} {x : Except Err Unit} {g : Heap V}
    (hr : w.results[n]? = some r) (hd : (ks r.kind).destroy r.out w.heap = (x, g)) :
    w.step ks (.destroy n) = (x, ⟨g, w.results.eraseIdx n⟩) := by
  show (match w.results[n]? with | none => _ | some r => _) = _
  rw [hr]
  show (match (ks r.kind).destroy r.out w.heap with | (x, h) => (x, (⟨h, w.results.eraseIdx n⟩ : World ks))) = _
  rw [hd]

theorem owned_step (hk : ∀ k, (ks k).Faithful) {h0 : Heap V} (hs : h0.Sound) {w : World ks}
    {zs : List (Outstanding ks × List Nat)} (h : Owned h0 w zs) (u : Use ks) (hu : u.Proper ks) :
    ∃ x w', w.step ks u = (x, w') ∧ (w'.heap.refused = w.heap.refused ∧ x = .ok () ∨
      w'.heap.refused = true ∧ x = .error .badAlloc) ∧ ∃ zs', Owned h0 w' zs' := by
  cases u with
  | create k v =>
    have hf := hk k v hu w.heap (fun n m a hn => hs n m a (by rw [← h.pick]; exact hn))
    simp only [World.step]
    generalize (ks k).emit v w.heap = r at hf ⊢
    obtain ⟨e | out, g⟩ := r
    · obtain ⟨f1, f2, f3, f4⟩ := hf
      refine ⟨_, _, rfl, Or.inr ⟨f3, by rw [f2]⟩, zs, h.keep (List.Sublist.refl _) f1 h.results
        (fun z hz a ha => f4 a (h.live z hz a ha).2) (fun a ha => ?_)⟩
      rcases hr : w.heap.blocks a with _ | b
      · right
        refine ⟨f3, ?_⟩
        rcases h.rest a ha with h1 | h1
        · rw [← h1, hr]
        · exact h1.2
      · rcases h.rest a ha with h1 | h1
        · left
          rw [f4 a (by rw [hr]; simp), h1]
        · exact Or.inr ⟨f3, h1.2⟩
    · obtain ⟨f1, f2, own, f3, f4, f5, f6⟩ := hf
      have hne : ∀ z ∈ zs, ∀ a ∈ z.2, a ∉ own := fun z hz a ha ho => (h.live z hz a ha).2 (f3 a ho).1
      refine ⟨_, _, rfl, Or.inl ⟨f2, rfl⟩, zs ++ [(⟨k, out, v⟩, own)], ?_⟩
      have hkeep : ∀ z ∈ zs, ∀ a ∈ z.2, g.blocks a = w.heap.blocks a := fun z hz a ha => f4 a (hne z hz a ha)
      refine ⟨f1.trans h.pick, by simp [h.results], ?_, ?_, ?_, ?_, ?_⟩
      · intro z hz a ha
        rcases List.mem_append.1 hz with hz | hz
        · show _ ∧ g.blocks a ≠ none
          rw [hkeep z hz a ha]
          exact h.live z hz a ha
        · rw [List.mem_singleton.1 hz] at ha
          refine ⟨?_, (f3 a ha).2⟩
          rcases h.rest a (fun y hy hay => hne y hy a hay ha) with h1 | h1
          · rw [← h1]; exact (f3 a ha).1
          · exact h1.2
      · intro z hz m hm
        rcases List.mem_append.1 hz with hz | hz
        · exact h.shows z hz m (fun a ha => by rw [hm a ha]; exact hkeep z hz a ha)
        · rw [List.mem_singleton.1 hz] at hm ⊢
          exact f5 m hm
      · intro z hz m hm
        rcases List.mem_append.1 hz with hz | hz
        · exact h.frees z hz m (fun a ha => by rw [hm a ha]; exact hkeep z hz a ha)
        · rw [List.mem_singleton.1 hz] at hm ⊢
          exact f6 m hm
      · rw [List.pairwise_append]
        refine ⟨h.disjoint, List.pairwise_singleton _ _, fun y hy z hz a ha => ?_⟩
        rw [List.mem_singleton.1 hz]
        exact hne y hy a ha
      · intro a ha
        show g.blocks a = _ ∨ g.refused = true ∧ _
        rw [f4 a (ha _ (List.mem_append_right _ (List.mem_singleton.2 rfl))), f2]
        exact h.rest a (fun z hz => ha z (List.mem_append_left _ hz))
  | destroy n =>
    rcases hn : w.results[n]? with _ | r
    · refine ⟨.ok (), w, ?_, Or.inl ⟨rfl, rfl⟩, zs, h⟩
      show (match w.results[n]? with | none => _ | some r => _) = _
      rw [hn]
    · have hstep := fun x g => step_destroy (x := x) (g := g) hn
      rw [h.results, List.getElem?_map] at hn
      rcases hz : zs[n]? with _ | z
      · rw [hz] at hn; cases hn
      rw [hz] at hn
      simp only [Option.map_some, Option.some.injEq] at hn
      obtain ⟨hlt, hget⟩ := List.getElem?_eq_some_iff.1 hz
      have hsplit : zs = zs.take n ++ z :: zs.drop (n + 1) := by
        rw [← hget, List.getElem_cons_drop, List.take_append_drop]
      have hdis : ∀ y ∈ zs.eraseIdx n, ∀ a ∈ y.2, a ∉ z.2 := by
        intro y hy a ha haz
        have hpw := h.disjoint
        rw [hsplit, List.pairwise_append] at hpw
        obtain ⟨_, p2, p3⟩ := hpw
        rw [List.eraseIdx_eq_take_drop_succ, List.mem_append] at hy
        rcases hy with hy | hy
        · exact p3 y hy z (by simp) a ha haz
        · exact (List.pairwise_cons.1 p2).1 y hy a haz ha
      have hfr := h.frees z (List.mem_of_getElem? hz) w.heap (fun _ _ => rfl)
      rw [hn] at hfr
      refine ⟨_, _, hstep _ _ hfr, Or.inl ⟨rfl, rfl⟩, zs.eraseIdx n, h.keep (List.eraseIdx_sublist _ _) rfl ?_ ?_ ?_⟩
      · show w.results.eraseIdx n = _
        rw [h.results, List.eraseIdx_eq_take_drop_succ, List.eraseIdx_eq_take_drop_succ, List.map_append, List.map_take,
          List.map_drop]
      · intro y hy a ha
        show (if a ∈ z.2 then none else w.heap.blocks a) = _
        rw [if_neg (hdis y hy a ha)]
      · intro a ha
        show (if a ∈ z.2 then none else w.heap.blocks a) = _ ∨ w.heap.refused = true ∧ _
        by_cases hz2 : a ∈ z.2
        · rw [if_pos hz2]
          exact Or.inl (h.live z (List.mem_of_getElem? hz) a hz2).1.symm
        · rw [if_neg hz2]
          refine h.rest a (fun y hy => ?_)
          rw [hsplit] at hy
          rcases List.mem_append.1 hy with hy | hy
          · exact ha y (by rw [List.eraseIdx_eq_take_drop_succ]; exact List.mem_append_left _ hy)
          · rcases List.mem_cons.1 hy with hy | hy
            · rw [hy]; exact hz2
            · exact ha y (by rw [List.eraseIdx_eq_take_drop_succ]; exact List.mem_append_right _ hy)

theorem owned_run (hk : ∀ k, (ks k).Faithful) {h0 : Heap V} (hs : h0.Sound) (us : List (Use ks)) :
    ∀ (w : World ks) (zs : List (Outstanding ks × List Nat)), Owned h0 w zs → (∀ u ∈ us, u.Proper ks) →
    ∃ xs w', World.run ks w us = (xs, w') ∧
      (w.heap.refused = true → w'.heap.refused = true) ∧
      (∀ x ∈ xs, x = .ok () ∨ w'.heap.refused = true ∧ x = .error .badAlloc) ∧ ∃ zs', Owned h0 w' zs' := by
  induction us with
  | nil => intro w zs h _; exact ⟨[], w, rfl, id, by simp, zs, h⟩
  | cons u us ih =>
    intro w zs h hu
    obtain ⟨x, w1, e1, hx, zs1, h1⟩ := owned_step hk hs h u (hu u (by simp))
    obtain ⟨xs, w2, e2, hr, hxs, h2⟩ := ih w1 zs1 h1 (fun v hv => hu v (by simp [hv]))
    refine ⟨x :: xs, w2, by simp only [World.run, e1, e2], fun hw => ?_, fun y hy => ?_, h2⟩
    · rcases hx with ⟨h3, _⟩ | ⟨h3, _⟩
      · exact hr (h3.trans hw)
      · exact hr h3
    · rcases List.mem_cons.1 hy with rfl | hy
      · rcases hx with ⟨_, h4⟩ | ⟨h3, h4⟩
        · exact Or.inl h4
        · exact Or.inr ⟨hr h3, h4⟩
      · exact hxs y hy
end

/-- C74: any history of creating results of any kind and destroying outstanding ones, in any order, starting from any memory.
Every call succeeds unless an allocation was refused; every outstanding result shows the value it was created for; memory that
was in use before is unchanged; and if no allocation was refused, then once no result is outstanding, the memory is what it was
at the beginning. -/
theorem C74_history (h : Heap V) (hs : h.Sound) (us : List (Use (interfaceResults (V := V))))
    (hu : ∀ u ∈ us, u.Proper interfaceResults) :
    ∀ xs w, World.run interfaceResults ⟨h, []⟩ us = (xs, w) →
      (∀ x ∈ xs, x = .ok () ∨ w.heap.refused = true ∧ x = .error .badAlloc) ∧
      (∀ r ∈ w.results, (interfaceResults r.kind).shows w.heap.blocks r.out r.value) ∧
      (∀ a, h.blocks a ≠ none → w.heap.blocks a = h.blocks a) ∧
      (w.heap.refused = false → w.results = [] → w.heap.blocks = h.blocks) := by
  intro xs w hr
  obtain ⟨xs', w', e, _, hx, zs, ho⟩ := owned_run interface_faithful hs us ⟨h, []⟩ []
    ⟨rfl, rfl, by simp, by simp, by simp, List.Pairwise.nil, fun _ _ => Or.inl rfl⟩ hu
  rw [e] at hr
  cases hr
  refine ⟨hx, fun r hr => ?_, fun a ha => ?_, fun hf hn => funext (fun a => ?_)⟩
  · rw [ho.results] at hr
    obtain ⟨z, hz, rfl⟩ := List.mem_map.1 hr
    exact ho.shows z hz _ (fun _ _ => rfl)
  · have hno : ∀ z ∈ zs, a ∉ z.2 := fun z hz haz => ha (ho.live z hz a haz).1
    rcases ho.rest a hno with h1 | h1
    · exact h1
    · exact absurd h1.2 ha
  · have hzs : zs = [] := by
      have := ho.results
      rw [hn] at this
      exact List.map_eq_nil_iff.1 this.symm
    rcases ho.rest a (by simp [hzs]) with h1 | h1
    · exact h1
    · rw [hf] at h1; cases h1.1

/-! ### Examples -/

/-- An empty memory with an allocator that hands out the blocks 1, 2, 3, … while they are free. -/
def counting : Heap Int :=
  { blocks := fun _ => none
    pick := fun n m => match m (n + 1) with | none => some (n + 1) | some _ => none
    count := 0
    refused := false }

theorem counting_sound : counting.Sound := by
  intro n m a h
  simp only [counting] at h
  rcases h1 : m (n + 1) with _ | b
  · rw [h1] at h
    cases h
    exact ⟨by omega, h1⟩
  · rw [h1] at h; cases h

/-- Two matrices with keys. -/
def twoKeyed : List (List (List UInt8) × Matrix Int) := [([[65], [66, 67]], ⟨1, 2, [5, 6]⟩), ([[]], ⟨1, 1, [7]⟩)]

/-- The outputs for them. -/
def twoOut : KeyedOut := ⟨⟨1, 0⟩, ⟨2, 0⟩, ⟨3, 0⟩, ⟨4, 0⟩, ⟨5, 0⟩, 2⟩

/-- Results with keys: create, read back, destroy. -/
example : (keyedResults : Results Int).valid twoKeyed ∧
    (emitKeyed twoKeyed counting).1.toOption.map (fun o => (o.keys, o.keyItems, o.cols, o.rows, o.cells, o.items)) =
      some (⟨1, 0⟩, ⟨2, 0⟩, ⟨3, 0⟩, ⟨4, 0⟩, ⟨5, 0⟩, 2) ∧
    (inKeys (emitKeyed twoKeyed counting).2.blocks ⟨1, 0⟩ ⟨2, 0⟩ 2).toOption = some [[[65], [66, 67]], [[]]] ∧
    (inMatrices (emitKeyed twoKeyed counting).2.blocks ⟨3, 0⟩ ⟨4, 0⟩ ⟨5, 0⟩ 2).toOption = some (twoKeyed.map Prod.snd) ∧
    (destroyKeyed twoOut (emitKeyed twoKeyed counting).2).1.toOption = some () ∧
    ∀ a : Fin 20, ((destroyKeyed twoOut (emitKeyed twoKeyed counting).2).2.blocks a).isNone = true := by
  refine ⟨?_, by decide +kernel, by decide +kernel, by decide +kernel, by decide +kernel, by decide +kernel⟩
  intro x hx
  simp [twoKeyed] at hx
  rcases hx with rfl | rfl <;> exact ⟨by simp, by simp [Matrix.Proper]⟩

/-- A history: two results are created, the first is destroyed, a third is created, all are destroyed. -/
example :
    let us : List (Use (interfaceResults (V := Int))) := [.create .strings [[72, 105], []], .create .items [1, 2, 3],
      .destroy 0, .create .matrix ⟨2, 1, [8, 9]⟩, .destroy 1, .destroy 0]
    (∀ u ∈ us, u.Proper interfaceResults) ∧
    ((World.run interfaceResults ⟨counting, []⟩ us).1.map (fun x => match x with | .ok () => true | .error _ => false)
      = List.replicate 6 true ∧
      (World.run interfaceResults ⟨counting, []⟩ us).2.results.isEmpty = true ∧
      (World.run interfaceResults ⟨counting, []⟩ us).2.heap.refused = false) := by
  refine ⟨?_, by decide +kernel, by decide +kernel, by decide +kernel⟩
  intro u hu
  simp at hu
  rcases hu with rfl | rfl | rfl | rfl | rfl | rfl <;> simp [Use.Proper, interfaceResults, stringsResults, itemResults,
    matrixResults, Matrix.Proper]

/-- A decomposed date: the holiday is empty. -/
example : ∃ o h', emitLabels ([74], [97], [83], []) counting = (.ok o, h') ∧ o = (⟨1, 0⟩, ⟨2, 0⟩, ⟨3, 0⟩, ⟨0, 0⟩) ∧
    cstring h'.blocks o.1 = .ok [74] := ⟨_, _, rfl, rfl, rfl⟩

/-- Reading back stops at a zero byte. -/
example : ∃ o h', emitString [65, 0, 66] counting = (.ok o, h') ∧ cstring h'.blocks o = .ok [65] := ⟨_, _, rfl, rfl⟩

/-- An empty matrix and an empty sparse vector: the hypotheses of the refutations are met. -/
example : (∃ o h', emitMatrix ⟨0, 2, []⟩ counting = (.ok o, h') ∧ h'.blocks 1 = some []) ∧
    (∃ o h', emitSparse ⟨4, []⟩ counting = (.ok o, h') ∧ h'.blocks 2 = some []) := ⟨⟨_, _, rfl, rfl⟩, ⟨_, _, rfl, rfl⟩⟩

end Feat.CBuffers
