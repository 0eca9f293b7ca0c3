import Mathlib.Data.List.Forall2
import Verif.Props.CInputs
/-
A small Hoare logic for the functions that allocate result buffers: `Triple F act Q` says that from a memory that
consists of any memory `m` and the blocks `F`, `act` leads to `m` and blocks described by `Q`, or fails because an
allocation was refused, leaving `m` untouched.  With `cl = true` it then also leaves nothing else behind.
-/
namespace Feat.CBuffers
variable {V α β : Type} {cl : Bool}

/-- Blocks with their contents. -/
abbrev Fp (V : Type) := List (Nat × Block V)

/-- Their addresses. -/
def addrs (fp : Fp V) : List Nat := fp.map Prod.fst

/-- `m'` is `m` with the blocks `fp`, which are free in `m`. -/
structure Adds (m : Mem V) (fp : Fp V) (m' : Mem V) : Prop where
  nodup : (addrs fp).Nodup
  fresh : ∀ a ∈ addrs fp, a ≠ 0 ∧ m a = none
  has : ∀ ab ∈ fp, m' ab.1 = some ab.2
  frame : ∀ a, a ∉ addrs fp → m' a = m a

theorem adds_nil (m : Mem V) : Adds m [] m := ⟨List.nodup_nil, by simp [addrs], by simp, fun _ _ => rfl⟩

theorem addrs_append (f g : Fp V) : addrs (f ++ g) = addrs f ++ addrs g := by simp [addrs]

theorem mem_addrs {fp : Fp V} {ab : Nat × Block V} (h : ab ∈ fp) : ab.1 ∈ addrs fp := List.mem_map_of_mem h

theorem adds_append {m m1 m2 : Mem V} {f g : Fp V} (h1 : Adds m f m1) (h2 : Adds m1 g m2) : Adds m (f ++ g) m2 := by
  have hdis : ∀ a, a ∈ addrs f → a ∉ addrs g := by
    intro a ha hg
    obtain ⟨ab, hab, rfl⟩ := List.mem_map.1 ha
    have := h1.has ab hab
    rw [(h2.fresh _ hg).2] at this
    cases this
  refine ⟨?_, ?_, ?_, ?_⟩
  · rw [addrs_append]
    exact List.nodup_append.2 ⟨h1.nodup, h2.nodup, fun a ha b hb hab => hdis a ha (hab ▸ hb)⟩
  · intro a ha
    rw [addrs_append, List.mem_append] at ha
    by_cases hf : a ∈ addrs f
    · exact h1.fresh a hf
    · have hg := h2.fresh a (ha.resolve_left hf)
      rw [h1.frame a hf] at hg
      exact hg
  · intro ab hab
    rw [List.mem_append] at hab
    rcases hab with hab | hab
    · rw [h2.frame _ (hdis _ (mem_addrs hab))]
      exact h1.has ab hab
    · exact h2.has ab hab
  · intro a ha
    rw [addrs_append, List.mem_append] at ha
    rw [h2.frame a (fun h => ha (Or.inr h)), h1.frame a (fun h => ha (Or.inl h))]

/-- See the head of this file. -/
def Triple (cl : Bool) (F : Fp V) (act : M (Heap V) α) (Q : α → Fp V → Prop) : Prop :=
  ∀ (m : Mem V) (h : Heap V), h.Sound → Adds m F h.blocks →
    match act h with
    | (.ok x, h') => h'.pick = h.pick ∧ h'.refused = h.refused ∧ ∃ fp, Q x fp ∧ Adds m fp h'.blocks
    | (.error e, h') => h'.pick = h.pick ∧ e = .badAlloc ∧ h'.refused = true ∧
      (∀ a, m a ≠ none → h'.blocks a = m a) ∧ (cl = true → h'.blocks = m)

theorem Triple.bind {F : Fp V} {act : M (Heap V) α} {Q : α → Fp V → Prop} {f : α → M (Heap V) β}
    {S : β → Fp V → Prop} (h1 : Triple cl F act Q) (h2 : ∀ x fp, Q x fp → Triple cl fp (f x) S) : Triple cl F (act >>= f) S := by
  intro m h hs ha
  have hr := h1 m h hs ha
  rw [M.bind_run]
  generalize act h = r at hr ⊢
  obtain ⟨_ | x, h'⟩ := r
  · exact hr
  · obtain ⟨hp, hrf, fp, hq, had⟩ := hr
    have hr2 := h2 x fp hq m h' (fun n m a hn => hs n m a (by rw [← hp]; exact hn)) had
    dsimp only
    generalize f x h' = r at hr2 ⊢
    obtain ⟨_ | y, h''⟩ := r
    · exact ⟨hr2.1.trans hp, hr2.2.1, hr2.2.2.1, hr2.2.2.2⟩
    · exact ⟨hr2.1.trans hp, hr2.2.1.trans hrf, hr2.2.2⟩

theorem Triple.pure {F : Fp V} {x : α} {Q : α → Fp V → Prop} (h : Q x F) : Triple cl F (pure x : M (Heap V) α) Q :=
  fun _ _ _ ha => ⟨rfl, rfl, F, h, ha⟩

theorem Triple.weaken {F : Fp V} {act : M (Heap V) α} {Q S : α → Fp V → Prop} (h : Triple cl F act Q)
    (hqs : ∀ x fp, Q x fp → S x fp) : Triple cl F act S := by
  intro m g hs ha
  have hr := h m g hs ha
  generalize act g = r at hr ⊢
  obtain ⟨_ | x, h'⟩ := r
  · exact hr
  · obtain ⟨hp, hrf, fp, hq, had⟩ := hr
    exact ⟨hp, hrf, fp, hqs x fp hq, had⟩

/-- What is allocated besides is unchanged. -/
theorem Triple.frame {act : M (Heap V) α} {Q : α → Fp V → Prop} (F : Fp V) (h : Triple cl [] act Q) :
    Triple false F act (fun x fp => ∃ fp', Q x fp' ∧ fp = F ++ fp') := by
  intro m g hs ha
  have hr := h g.blocks g hs (adds_nil _)
  generalize act g = r at hr ⊢
  obtain ⟨_ | x, h'⟩ := r
  · refine ⟨hr.1, hr.2.1, hr.2.2.1, fun a hm => ?_, fun h => by cases h⟩
    have hf : a ∉ addrs F := fun hf => hm (ha.fresh a hf).2
    have := ha.frame a hf
    rw [hr.2.2.2.1 a (by rw [this]; exact hm), this]
  · obtain ⟨hp, hrf, fp, hq, had⟩ := hr
    exact ⟨hp, hrf, F ++ fp, ⟨fp, hq, rfl⟩, adds_append ha had⟩

theorem newArray_triple (n : Nat) : Triple cl ([] : Fp V) (newArray n)
    (fun p fp => ∃ a, a ≠ 0 ∧ p = ⟨a, 0⟩ ∧ fp = [(a, List.replicate n none)]) := by
  intro m h hs ha
  have hm : h.blocks = m := funext (fun a => ha.frame a (by simp [addrs]))
  rcases hp : h.pick h.count h.blocks with _ | a
  · have heq : newArray n h = (.error .badAlloc, { h with count := h.count + 1, refused := true }) := by
      simp only [newArray, hp]
    rw [heq]
    exact ⟨rfl, rfl, rfl, fun a _ => by show h.blocks a = m a; rw [hm], fun _ => hm⟩
  · have heq : newArray n h = (.ok ⟨a, 0⟩, { h with
        count := h.count + 1
        blocks := fun x => if x = a then some (List.replicate n none) else h.blocks x }) := by
      simp only [newArray, hp]
    rw [heq]
    obtain ⟨h0, h1⟩ := hs _ _ _ hp
    refine ⟨rfl, rfl, _, ⟨a, h0, rfl, rfl⟩, ?_, ?_, ?_, ?_⟩
    · simp [addrs]
    · intro b hb
      simp [addrs] at hb
      exact ⟨hb ▸ h0, by rw [← hm, hb]; exact h1⟩
    · intro ab hab
      simp at hab
      rw [hab]
      simp
    · intro b hb
      simp [addrs] at hb
      simp [hb, hm]

theorem store_triple (F G : Fp V) (a i : Nat) (old : Block V) (c : Cell V) (hi : i < old.length) :
    Triple cl (F ++ (a, old) :: G) (store ⟨a, 0⟩ i c) (fun _ fp => fp = F ++ (a, old.set i (some c)) :: G) := by
  intro m h hs ha
  have hb : h.blocks a = some old := ha.has (a, old) (by simp)
  have heq : store ⟨a, 0⟩ i c h =
      (.ok (), { h with blocks := fun x => if x = a then some (old.set i (some c)) else h.blocks x }) := by
    simp only [store, hb, Nat.zero_add, hi, if_true]
  rw [heq]
  have hadr : addrs (F ++ (a, old.set i (some c)) :: G) = addrs (F ++ (a, old) :: G) := by simp [addrs]
  refine ⟨rfl, rfl, _, rfl, ?_, ?_, ?_, ?_⟩
  · rw [hadr]; exact ha.nodup
  · rw [hadr]; exact ha.fresh
  · intro ab hab
    have hnd := ha.nodup
    simp only [addrs, List.map_append, List.map_cons] at hnd
    rw [List.nodup_append] at hnd
    obtain ⟨_, hnd2, hnd3⟩ := hnd
    rw [List.nodup_cons] at hnd2
    simp only [List.mem_append, List.mem_cons] at hab
    rcases hab with hab | hab | hab
    · have : ab.1 ≠ a := fun he => hnd3 ab.1 (List.mem_map_of_mem hab) a (by simp) he
      simp only [this, if_false]
      exact ha.has ab (by simp [hab])
    · rw [hab]; simp
    · have : ab.1 ≠ a := fun he => hnd2.1 (he ▸ List.mem_map_of_mem hab)
      simp only [this, if_false]
      exact ha.has ab (by simp [hab])
  · rw [hadr]
    intro b hb'
    have : b ≠ a := fun he => hb' (by rw [he]; simp [addrs])
    simp only [this, if_false]
    exact ha.frame b hb'

/-- Filling a new array from the left. -/
theorem storeAll_triple (F G : Fp V) (a : Nat) (cs : List (Cell V)) :
    ∀ (done : List (Cell V)) (n : Nat), done.length + cs.length ≤ n →
    Triple cl (F ++ (a, done.map some ++ List.replicate (n - done.length) none) :: G)
      (storeAll ⟨a, 0⟩ done.length cs)
      (fun _ fp => fp = F ++ (a, (done ++ cs).map some ++ List.replicate (n - (done ++ cs).length) none) :: G) := by
  induction cs with
  | nil =>
    intro done n _
    exact Triple.pure (by simp)
  | cons c cs ih =>
    intro done n hn
    simp only [List.length_cons] at hn
    refine Triple.bind (store_triple F G a done.length _ c (by simp; omega)) (fun _ fp hfp => ?_)
    have hset : (done.map some ++ List.replicate (n - done.length) none).set done.length (some c)
        = (done ++ [c]).map some ++ List.replicate (n - (done ++ [c]).length) none := by
      obtain ⟨k, hk⟩ : ∃ k, n - done.length = k + 1 := ⟨n - done.length - 1, by omega⟩
      rw [hk, List.replicate_succ, show n - (done ++ [c]).length = k by simp; omega]
      rw [List.set_append_right _ _ (by simp)]
      simp
    rw [hset] at hfp
    rw [hfp]
    have := ih (done ++ [c]) n (by simp; omega)
    rw [List.length_append, List.append_assoc] at this
    simpa using this

theorem storeAll_new (F G : Fp V) (a : Nat) (cs : List (Cell V)) :
    Triple cl (F ++ (a, List.replicate cs.length none) :: G) (storeAll ⟨a, 0⟩ 0 cs)
      (fun _ fp => fp = F ++ (a, cs.map some) :: G) := by
  have := storeAll_triple (cl := cl) F G a cs [] cs.length (by simp)
  simpa using this

/-- An array that is allocated and filled at once. -/
theorem newFilled (cs : List (Cell V)) (out : Ptr → α) :
    Triple cl ([] : Fp V) (do let p ← newArray cs.length; storeAll p 0 cs; pure (out p))
      (fun x fp => ∃ a, a ≠ 0 ∧ x = out ⟨a, 0⟩ ∧ fp = [(a, cs.map some)]) := by
  refine Triple.bind (newArray_triple _) (fun p fp h => ?_)
  obtain ⟨a, h0, rfl, rfl⟩ := h
  refine Triple.bind (storeAll_new [] [] a cs) (fun _ fp h => ?_)
  rw [h]
  exact Triple.pure ⟨a, h0, rfl, rfl⟩

/-- The cells of a zero-terminated string. -/
def chars (s : List UInt8) : Block V := (s ++ [0]).map (fun b => some (Cell.byte b))

theorem emitChars_triple (s : List UInt8) : Triple cl ([] : Fp V) (emitChars s)
    (fun p fp => ∃ a, a ≠ 0 ∧ p = ⟨a, 0⟩ ∧ fp = [(a, chars s)]) := by
  refine Triple.bind (newArray_triple _) (fun p fp h => ?_)
  obtain ⟨a, h0, rfl, rfl⟩ := h
  have h1 := storeAll_triple (cl := cl) [] [] a (s.map (Cell.byte : UInt8 → Cell V)) [] (s.length + 1) (by simp)
  simp only [List.map_nil, List.nil_append, List.length_nil, Nat.sub_zero, List.length_map,
    Nat.add_sub_cancel_left] at h1
  refine Triple.bind h1 (fun _ fp h => ?_)
  rw [h]
  have h2 := store_triple (cl := cl) [] [] a s.length ((s.map (Cell.byte : UInt8 → Cell V)).map some ++ [none]) (.byte 0) (by simp)
  refine Triple.bind h2 (fun _ fp h => Triple.pure ⟨a, h0, rfl, ?_⟩)
  rw [h, List.set_append_right _ _ (by simp)]
  simp [chars]

/-- The outputs and blocks of a string result. -/
def StringR (s : List UInt8) (p : Ptr) (fp : Fp V) : Prop :=
  (s = [] ∧ p = Ptr.null ∧ fp = []) ∨ (s ≠ [] ∧ ∃ a, a ≠ 0 ∧ p = ⟨a, 0⟩ ∧ fp = [(a, chars s)])

theorem emitString_triple (s : List UInt8) : Triple cl ([] : Fp V) (emitString s) (StringR s) := by
  rcases s with _ | ⟨b, s⟩
  · exact Triple.pure (Or.inl ⟨rfl, rfl, rfl⟩)
  · exact (emitChars_triple (b :: s)).weaken (fun p fp h => Or.inr ⟨by simp, h⟩)

/-- The outputs and blocks of a vector of numbers. -/
def ItemsR (xs : List V) (r : Ptr × Nat) (fp : Fp V) : Prop :=
  (xs = [] ∧ r = (Ptr.null, 0) ∧ fp = []) ∨
  (xs ≠ [] ∧ ∃ a, a ≠ 0 ∧ r = (⟨a, 0⟩, xs.length) ∧ fp = [(a, xs.map (fun v => some (Cell.datum v)))])

theorem emitItems_triple (xs : List V) : Triple cl ([] : Fp V) (emitItems xs) (ItemsR xs) := by
  rcases xs with _ | ⟨x, xs⟩
  · exact Triple.pure (Or.inl ⟨rfl, rfl, rfl⟩)
  · have := newFilled (cl := cl) ((x :: xs).map Cell.datum) (fun p => (p, (x :: xs).length))
    rw [List.length_map] at this
    refine this.weaken (fun r fp h => Or.inr ⟨by simp, ?_⟩)
    obtain ⟨a, h0, h1, h2⟩ := h
    exact ⟨a, h0, h1, by rw [h2, List.map_map]; rfl⟩

theorem emitMatrix_triple (x : Matrix V) : Triple cl ([] : Fp V) (emitMatrix x)
    (fun r fp => ∃ a, a ≠ 0 ∧ r = (x.cols, x.rows, ⟨a, 0⟩) ∧ fp = [(a, x.cells.map (fun v => some (Cell.datum v)))]) := by
  have := newFilled (cl := cl) (x.cells.map Cell.datum) (fun p => (x.cols, x.rows, p))
  rw [List.length_map] at this
  refine this.weaken (fun r fp h => ?_)
  obtain ⟨a, h0, h1, h2⟩ := h
  exact ⟨a, h0, h1, by rw [h2, List.map_map]; rfl⟩

theorem emitSaved_triple (bs : List UInt8) : Triple cl ([] : Fp V) (emitSaved bs)
    (fun r fp => ∃ a, a ≠ 0 ∧ r = (⟨a, 0⟩, bs.length) ∧ fp = [(a, bs.map (fun b => some (Cell.byte b)))]) := by
  have := newFilled (cl := cl) (bs.map (Cell.byte : UInt8 → Cell V)) (fun p => (p, bs.length))
  rw [List.length_map] at this
  refine this.weaken (fun r fp h => ?_)
  obtain ⟨a, h0, h1, h2⟩ := h
  exact ⟨a, h0, h1, by rw [h2, List.map_map]; rfl⟩

/-! ### Arrays filled by a loop -/

/-- The arrays `as` after the rows `rows` of `n` have been written; array number `j` takes the `j`-th cells. -/
def columns (as : List Nat) (rows : List (List (Cell V))) (n : Nat) (j : Nat) : Fp V :=
  match as with
  | [] => []
  | a :: as => (a, rows.map (fun r => r[j]?) ++ List.replicate (n - rows.length) none) :: columns as rows n (j + 1)

theorem storeRow_triple (as : List Nat) (rows : List (List (Cell V))) (r : List (Cell V)) (n : Nat)
    (hn : rows.length < n) : ∀ (j : Nat) (F G : Fp V), r.length = j + as.length →
    Triple cl (F ++ columns as rows n j ++ G) (storeRow rows.length (as.map (fun a => ⟨a, 0⟩)) (r.drop j))
      (fun _ fp => fp = F ++ columns as (rows ++ [r]) n j ++ G) := by
  induction as with
  | nil =>
    intro j F G _
    simp only [List.map_nil, storeRow]
    exact Triple.pure rfl
  | cons a as ih =>
    intro j F G hr
    simp only [List.length_cons] at hr
    rw [List.drop_eq_getElem_cons (show j < r.length by omega)]
    simp only [List.map_cons, storeRow, columns]
    have h1 := store_triple (cl := cl) F (columns as rows n (j + 1) ++ G) a rows.length
      (rows.map (fun r => r[j]?) ++ List.replicate (n - rows.length) none) r[j] (by simp; omega)
    have hset : (rows.map (fun r => r[j]?) ++ List.replicate (n - rows.length) none).set rows.length (some r[j])
        = (rows ++ [r]).map (fun r => r[j]?) ++ List.replicate (n - (rows ++ [r]).length) none := by
      obtain ⟨k, hk⟩ : ∃ k, n - rows.length = k + 1 := ⟨n - rows.length - 1, by omega⟩
      rw [hk, List.replicate_succ, show n - (rows ++ [r]).length = k by simp; omega]
      rw [List.set_append_right _ _ (by simp)]
      simp [List.getElem?_eq_getElem (show j < r.length by omega)]
    rw [hset] at h1
    rw [List.append_assoc, List.cons_append]
    refine Triple.bind h1 (fun _ fp hfp => ?_)
    have h2 := ih (j + 1) (F ++ [(a, (rows ++ [r]).map (fun r => r[j]?) ++
      List.replicate (n - (rows ++ [r]).length) none)]) G (by omega)
    rw [hfp]
    simpa [List.append_assoc] using h2

/-- The loop over results. -/
theorem fill_triple (as : List Nat) (body : α → M (Heap V) (List (Cell V))) (R : α → List (Cell V) → Fp V → Prop)
    (hlen : ∀ x cs fp, R x cs fp → cs.length = as.length) (n : Nat) (xs : List α) :
    ∀ (rows : List (List (Cell V))) (F : Fp V), (∀ x ∈ xs, ∀ F, Triple cl F (body x) (fun cs fp => ∃ f, R x cs f ∧ fp = F ++ f)) →
    rows.length + xs.length ≤ n →
    Triple cl (columns as rows n 0 ++ F) (fillArrays (as.map (fun a => ⟨a, 0⟩)) body rows.length xs)
      (fun _ fp => ∃ rs : List (List (Cell V) × Fp V), List.Forall₂ (fun x r => R x r.1 r.2) xs rs ∧
        fp = columns as (rows ++ rs.map Prod.fst) n 0 ++ F ++ rs.flatMap Prod.snd) := by
  induction xs with
  | nil =>
    intro rows F _ _
    exact Triple.pure ⟨[], List.Forall₂.nil, by simp⟩
  | cons x xs ih =>
    intro rows F hb hn
    simp only [List.length_cons] at hn
    refine Triple.bind (hb x (by simp) (columns as rows n 0 ++ F)) (fun cs fp h => ?_)
    obtain ⟨fx, hx, rfl⟩ := h
    have hl := hlen x cs fx hx
    have h1 := storeRow_triple (cl := cl) as rows cs n (by omega) 0 [] (F ++ fx) (by omega)
    simp only [List.nil_append, List.drop_zero] at h1
    rw [List.append_assoc]
    refine Triple.bind h1 (fun _ fp h => ?_)
    rw [h]
    have h2 := ih (rows ++ [cs]) (F ++ fx) (fun y hy => hb y (by simp [hy])) (by simp; omega)
    rw [List.length_append] at h2
    refine h2.weaken (fun _ fp h => ?_)
    obtain ⟨rs, h3, h4⟩ := h
    exact ⟨(cs, fx) :: rs, List.Forall₂.cons hx h3, by rw [h4]; simp [List.append_assoc]⟩

theorem columns_none (as : List Nat) (n : Nat) : ∀ j,
    columns as ([] : List (List (Cell V))) n j = as.map (fun a => (a, List.replicate n none)) := by
  induction as with
  | nil => intro j; rfl
  | cons a as ih => intro j; simp [columns, ih]

theorem fill_new (as : List Nat) (body : α → M (Heap V) (List (Cell V))) (R : α → List (Cell V) → Fp V → Prop)
    (hlen : ∀ x cs fp, R x cs fp → cs.length = as.length) (xs : List α) 
    (hb : ∀ x ∈ xs, ∀ F, Triple cl F (body x) (fun cs fp => ∃ f, R x cs f ∧ fp = F ++ f)) :
    Triple cl (as.map (fun a => (a, List.replicate xs.length none))) (fillArrays (as.map (fun a => ⟨a, 0⟩)) body 0 xs)
      (fun _ fp => ∃ rs : List (List (Cell V) × Fp V), List.Forall₂ (fun x r => R x r.1 r.2) xs rs ∧
        fp = columns as (rs.map Prod.fst) xs.length 0 ++ rs.flatMap Prod.snd) := by
  have h := fill_triple (cl := cl) as body R hlen xs.length xs [] [] hb (by simp)
  rw [columns_none, List.append_nil] at h
  simpa using h

end Feat.CBuffers
