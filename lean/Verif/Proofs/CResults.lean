import Verif.Proofs.CBuffers
/-
The blocks behind each kind of result: creating it allocates them, they show the value, destroying it releases them.
-/
namespace Feat.CBuffers
variable {V α β : Type} {cl : Bool}

/-- The memory has these blocks. -/
def Has (m : Mem V) (fp : Fp V) : Prop := ∀ ab ∈ fp, m ab.1 = some ab.2

theorem Has.sub {m : Mem V} {f g : Fp V} (h : Has m g) (hs : f ⊆ g) : Has m f := fun ab hab => h ab (hs hab)

theorem mem_addrs_iff {fp : Fp V} {a : Nat} : a ∈ addrs fp ↔ ∃ ab ∈ fp, ab.1 = a := List.mem_map

theorem addrs_sub {f g : Fp V} (hs : f ⊆ g) : addrs f ⊆ addrs g := List.map_subset _ hs

/-! ### Filled arrays -/

theorem at_of_has {m : Mem V} {a i : Nat} {cells : Block V} {c : Cell V} (h0 : a ≠ 0) (h : m a = some cells)
    (hc : cells[i]? = some (some c)) : At m ⟨a, 0⟩ i c := ⟨h0, cells, h, by simpa using hc⟩

theorem array_of_has {m : Mem V} {a : Nat} {xs : List α} {f : α → Cell V} {holds : Cell V → α → Prop} (h0 : a ≠ 0)
    (h : m a = some (xs.map (fun x => some (f x)))) (hf : ∀ x, holds (f x) x) : IsArray m ⟨a, 0⟩ holds xs := by
  intro i x hx
  exact ⟨f x, at_of_has h0 h (by rw [List.getElem?_map, hx]; rfl), hf x⟩

theorem columns_mem (rows : List (List (Cell V))) (as : List Nat) : ∀ (k j a : Nat), as[j]? = some a →
    (a, rows.map (fun r => r[k + j]?)) ∈ columns as rows rows.length k := by
  induction as with
  | nil => intro k j a h; cases h
  | cons b as ih =>
    intro k j a h
    rcases j with _ | j
    · simp only [List.getElem?_cons_zero, Option.some.injEq] at h
      subst h
      simp [columns]
    · have := ih (k + 1) j a (by simpa using h)
      rw [show k + 1 + j = k + (j + 1) by omega] at this
      simp only [columns]
      exact List.mem_cons_of_mem _ this

theorem addrs_columns (rows : List (List (Cell V))) (n : Nat) (as : List Nat) : ∀ k, addrs (columns as rows n k) = as := by
  induction as with
  | nil => intro k; rfl
  | cons a as ih =>
    intro k
    have := ih (k + 1)
    simp only [addrs] at this
    simp [columns, addrs, this]

/-- The blocks after a loop over results: the arrays `as` and the blocks of every result. -/
def Loop (as : List Nat) (R : α → List (Cell V) → Fp V → Prop) (xs : List α) (fp : Fp V) : Prop :=
  (∀ a ∈ as, a ≠ 0) ∧ ∃ rs : List (List (Cell V) × Fp V), List.Forall₂ (fun x r => R x r.1 r.2) xs rs ∧
    fp = columns as (rs.map Prod.fst) xs.length 0 ++ rs.flatMap Prod.snd

theorem forall₂_get {R : α → β → Prop} {xs : List α} {ys : List β} (h : List.Forall₂ R xs ys) :
    ∀ (i : Nat) (x : α), xs[i]? = some x → ∃ y, ys[i]? = some y ∧ R x y := by
  induction h with
  | nil => intro i x hx; cases hx
  | @cons a b l1 l2 hab _ ih =>
    intro i x hx
    rcases i with _ | i
    · simp only [List.getElem?_cons_zero, Option.some.injEq] at hx
      exact ⟨b, rfl, hx ▸ hab⟩
    · exact ih i x (by simpa using hx)

theorem forall₂_get' {R : α → β → Prop} {xs : List α} {ys : List β} (h : List.Forall₂ R xs ys) :
    ∀ (i : Nat) (y : β), ys[i]? = some y → ∃ x, xs[i]? = some x ∧ R x y := by
  induction h with
  | nil => intro i x hx; cases hx
  | @cons a b l1 l2 hab _ ih =>
    intro i x hx
    rcases i with _ | i
    · simp only [List.getElem?_cons_zero, Option.some.injEq] at hx
      exact ⟨a, rfl, hx ▸ hab⟩
    · exact ih i x (by simpa using hx)

theorem loop_cell {as : List Nat} (h0 : ∀ a ∈ as, a ≠ 0) {R : α → List (Cell V) → Fp V → Prop} {xs : List α}
    {rs : List (List (Cell V) × Fp V)} (hf : List.Forall₂ (fun x r => R x r.1 r.2) xs rs) {m : Mem V}
    (hm : Has m (columns as (rs.map Prod.fst) xs.length 0)) {i : Nat} {r : List (Cell V) × Fp V} (hr : rs[i]? = some r)
    {j a : Nat} {c : Cell V} (ha : as[j]? = some a) (hc : r.1[j]? = some c) : At m ⟨a, 0⟩ i c := by
  have hl : xs.length = (rs.map Prod.fst).length := by rw [List.length_map]; exact hf.length_eq
  rw [hl] at hm
  have h1 := hm _ (columns_mem (rs.map Prod.fst) as 0 j a ha)
  refine at_of_has (h0 a (List.mem_of_getElem? ha)) h1 ?_
  rw [List.getElem?_map, List.getElem?_map, hr]
  simp [hc]

theorem Loop.at {as : List Nat} {R : α → List (Cell V) → Fp V → Prop} {xs : List α} {fp : Fp V} (hl : Loop as R xs fp)
    {m : Mem V} (hm : Has m fp) {i : Nat} {x : α} (hx : xs[i]? = some x) :
    ∃ cs f, R x cs f ∧ Has m f ∧ ∀ (j a : Nat) (c : Cell V), as[j]? = some a → cs[j]? = some c → At m ⟨a, 0⟩ i c := by
  obtain ⟨h0, rs, hf, rfl⟩ := hl
  obtain ⟨r, hr, hR⟩ := forall₂_get hf i x hx
  refine ⟨r.1, r.2, hR, hm.sub (fun ab hab => ?_), fun j a c ha hc =>
    loop_cell h0 hf (hm.sub (List.subset_append_left _ _)) hr ha hc⟩
  exact List.mem_append_right _ (List.mem_flatMap.2 ⟨r, List.mem_of_getElem? hr, hab⟩)

theorem Loop.array {as : List Nat} {R : α → List (Cell V) → Fp V → Prop} {xs : List α} {fp : Fp V} (hl : Loop as R xs fp)
    {m : Mem V} (hm : Has m fp) {j a : Nat} (ha : as[j]? = some a) {holds : Cell V → α → Prop}
    (h : ∀ x (cs : List (Cell V)) g, R x cs g → Has m g → ∃ c, cs[j]? = some c ∧ holds c x) :
    IsArray m ⟨a, 0⟩ holds xs := by
  intro i x hx
  obtain ⟨cs, f, hR, hf, hat⟩ := hl.at hm hx
  obtain ⟨c, h1, h2⟩ := h x cs f hR hf
  exact ⟨c, hat j a c ha h1, h2⟩

theorem Loop.sizes {as : List Nat} {R : α → List (Cell V) → Fp V → Prop} {xs : List α} {fp : Fp V} (hl : Loop as R xs fp)
    {m : Mem V} (hm : Has m fp) {j a : Nat} (ha : as[j]? = some a) (f : α → Nat)
    (h : ∀ x (cs : List (Cell V)) g, R x cs g → cs[j]? = some (.size (f x))) : Sizes m ⟨a, 0⟩ (xs.map f) := by
  intro i n hn
  rw [List.getElem?_map] at hn
  rcases hx : xs[i]? with _ | x
  · rw [hx] at hn; cases hn
  · rw [hx] at hn
    simp only [Option.map_some, Option.some.injEq] at hn
    obtain ⟨cs, g, hR, _, hat⟩ := hl.at hm hx
    exact ⟨.size n, hat j a _ ha (by rw [h x cs g hR, hn]), rfl⟩

/-! ### Releasing -/

/-- `act` releases the blocks `F` and nothing else, in any memory that has them and the blocks `K`. -/
def Frees (K F : Fp V) (act : M (Heap V) Unit) : Prop :=
  ∀ g : Heap V, (addrs F).Nodup → (∀ a ∈ addrs K, a ∉ addrs F) → Has g.blocks K → Has g.blocks F →
    act g = (.ok (), g.without (addrs F))

theorem without_nil (g : Heap V) : g.without [] = g := by simp [Heap.without]

theorem without_append (g : Heap V) (xs ys : List Nat) : (g.without xs).without ys = g.without (xs ++ ys) := by
  have h : ∀ a, (if a ∈ ys then none else if a ∈ xs then none else g.blocks a)
      = if a ∈ xs ++ ys then none else g.blocks a := by
    intro a
    by_cases h1 : a ∈ ys <;> by_cases h2 : a ∈ xs <;> simp [h1, h2]
  simp only [Heap.without, h]

theorem Frees.mono {K K' F : Fp V} {act : M (Heap V) Unit} (h : Frees K F act) (hk : K ⊆ K') : Frees K' F act :=
  fun g h1 h2 h3 h4 => h g h1 (fun a ha => h2 a (addrs_sub hk ha)) (h3.sub hk) h4

theorem Frees.nothing (K : Fp V) : Frees K [] (pure () : M (Heap V) Unit) := fun g _ _ _ _ => by
  show (Except.ok (), g) = (Except.ok (), g.without [])
  rw [without_nil]

theorem has_without {g : Heap V} {F G : Fp V} (h : Has g.blocks G) (hd : ∀ a ∈ addrs G, a ∉ addrs F) :
    Has (g.without (addrs F)).blocks G := by
  intro ab hab
  show (if ab.1 ∈ addrs F then none else g.blocks ab.1) = some ab.2
  rw [if_neg (hd _ (mem_addrs hab))]
  exact h ab hab

theorem Frees.seq {K F G : Fp V} {a b : M (Heap V) Unit} (ha : Frees (K ++ G) F a) (hb : Frees K G b) :
    Frees K (F ++ G) (a >>= fun _ => b) := by
  intro g hn hd hk hfg
  rw [addrs_append] at hn hd
  obtain ⟨n1, n2, n3⟩ := List.nodup_append.1 hn
  have e1 := ha g n1 (fun x hx hxf => by
      rw [addrs_append, List.mem_append] at hx
      rcases hx with hx | hx
      · exact hd x hx (List.mem_append_left _ hxf)
      · exact n3 x hxf x hx rfl)
    (fun ab hab => by
      rcases List.mem_append.1 hab with h | h
      · exact hk ab h
      · exact hfg ab (List.mem_append_right _ h))
    (hfg.sub (List.subset_append_left _ _))
  have e2 := hb (g.without (addrs F)) n2 (fun x hx hxg => hd x hx (List.mem_append_right _ hxg))
    (has_without hk (fun x hx hxf => hd x hx (List.mem_append_left _ hxf)))
    (has_without (hfg.sub (List.subset_append_right _ _)) (fun x hx hxf => n3 x hxf x hx rfl))
  rw [M.bind_ok _ e1, e2, without_append, addrs_append]

theorem Frees.read {K F : Fp V} {f : Mem V → Except Err α} {x : α} {k : α → M (Heap V) Unit}
    (hf : ∀ m, Has m K → Has m F → f m = .ok x) (hk : Frees K F (k x)) : Frees K F (reading f >>= k) := by
  intro g h1 h2 h3 h4
  have e : reading f g = (.ok x, g) := by simp only [reading, hf _ h3 h4]
  rw [M.bind_ok _ e]
  exact hk g h1 h2 h3 h4

theorem Frees.refuse {K F : Fp V} {b : Bool} {act : M (Heap V) Unit} (hb : b = false) (hk : Frees K F act) :
    Frees K F (refuseIf b >>= fun _ => act) := by
  intro g h1 h2 h3 h4
  have e : refuseIf b g = (.ok (), g) := by simp [refuseIf, hb]
  rw [M.bind_ok _ e]
  exact hk g h1 h2 h3 h4

theorem Frees.free (K : Fp V) {a : Nat} (b : Block V) (h0 : a ≠ 0) : Frees K [(a, b)] (free ⟨a, 0⟩) := by
  intro g _ _ _ h4
  have hb : g.blocks a = some b := h4 (a, b) (by simp)
  simp [CBuffers.free, Ptr.isNull, h0, hb, Heap.without, addrs]

theorem Frees.loop {K : Fp V} {body : Nat → M (Heap V) Unit} (fs : List (Fp V)) : ∀ i,
    (∀ j f, fs[j]? = some f → Frees K f (body (i + j))) → Frees K fs.flatten (forItems body i fs.length) := by
  induction fs with
  | nil => intro i _; exact Frees.nothing K
  | cons f fs ih =>
    intro i h
    have h0 := h 0 f rfl
    have h1 := ih (i + 1) (fun j f hf => by
      have := h (j + 1) f (by simpa using hf)
      rwa [show i + 1 + j = i + (j + 1) by omega])
    exact Frees.seq (h0.mono (List.subset_append_left _ _)) h1

/-- The loop that destroys what a loop over results created. -/
theorem Frees.forLoop {as : List Nat} {R : α → List (Cell V) → Fp V → Prop} {xs : List α}
    {rs : List (List (Cell V) × Fp V)} (hf : List.Forall₂ (fun x r => R x r.1 r.2) xs rs)
    {body : Nat → M (Heap V) Unit}
    (hb : ∀ i x r, xs[i]? = some x → rs[i]? = some r → R x r.1 r.2 →
      Frees (columns as (rs.map Prod.fst) xs.length 0) r.2 (body i)) :
    Frees (columns as (rs.map Prod.fst) xs.length 0) (rs.flatMap Prod.snd) (forItems body 0 xs.length) := by
  have h := Frees.loop (K := columns as (rs.map Prod.fst) xs.length 0) (body := body) (rs.map Prod.snd) 0 (fun j f hj => by
    rw [List.getElem?_map] at hj
    rcases hr : rs[j]? with _ | r
    · rw [hr] at hj; cases hj
    · rw [hr] at hj
      obtain ⟨x, hx, hR⟩ := forall₂_get' hf j r hr
      have := hb j x r hx hr hR
      simp only [Option.map_some, Option.some.injEq] at hj
      rw [Nat.zero_add, ← hj]
      exact this)
  rw [List.length_map, ← hf.length_eq] at h
  exact h

/-- Order does not matter. -/
theorem Frees.comm {F G : Fp V} {act : M (Heap V) Unit} (h : Frees [] (F ++ G) act) : Frees [] (G ++ F) act := by
  intro g hn _ _ hg
  have hp : (addrs (G ++ F)).Perm (addrs (F ++ G)) := (List.perm_append_comm).map _
  rw [h g (hp.nodup_iff.1 hn) (by simp [addrs]) (by intro ab hab; cases hab)
    (hg.sub (fun ab hab => by simpa [or_comm] using hab))]
  have : ∀ a, (a ∈ addrs (F ++ G)) = (a ∈ addrs (G ++ F)) := fun a => propext hp.symm.mem_iff
  simp only [Heap.without, this]

/-! ### From blocks to the statements -/

theorem faithful_of (k : Results V) (R : k.Value → k.Out → Fp V → Prop)
    (h1 : ∀ v, k.valid v → Triple cl [] (k.emit v) (R v))
    (h2 : ∀ v out fp, k.valid v → R v out fp → ∀ m, Has m fp → k.shows m out v)
    (h3 : ∀ v out fp, k.valid v → R v out fp → Frees [] fp (k.destroy out)) : k.Faithful := by
  intro v hv h hs
  have hr := h1 v hv h.blocks h hs (adds_nil _)
  generalize k.emit v h = r at hr ⊢
  obtain ⟨_ | out, h'⟩ := r
  · exact ⟨hr.1, hr.2.1, hr.2.2.1, hr.2.2.2.1⟩
  · obtain ⟨hp, hrf, fp, hq, had⟩ := hr
    have hhas : ∀ m : Mem V, (∀ a ∈ addrs fp, m a = h'.blocks a) → Has m fp := fun m hm ab hab => by
      rw [hm _ (mem_addrs hab)]
      exact had.has ab hab
    refine ⟨hp, hrf, addrs fp, fun a ha => ⟨(had.fresh a ha).2, fun hn => ?_⟩, had.frame, fun m hm => h2 v out fp hv hq m (hhas m hm),
      fun g hg => h3 v out fp hv hq g had.nodup (by simp [addrs]) (by intro ab hab; cases hab) (hhas _ hg)⟩
    obtain ⟨ab, hab, rfl⟩ := mem_addrs_iff.1 ha
    rw [had.has ab hab] at hn
    cases hn

theorem clean_of (k : Results V) (R : k.Value → k.Out → Fp V → Prop)
    (h1 : ∀ v, k.valid v → Triple true [] (k.emit v) (R v)) : k.CleanOnFailure := by
  intro v hv h hs e h' he
  have hr := h1 v hv h.blocks h hs (adds_nil _)
  rw [he] at hr
  exact hr.2.2.2.2 rfl

end Feat.CBuffers
