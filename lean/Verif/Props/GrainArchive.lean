import Verif.Props.ChainArchive
import Verif.Spec.Grain
/-
C38: saving and loading grain transformers.
-/
namespace Feat
variable {K : Type}

/-- The archive side of the grain transformer (`base'`: where the copy of the archive is placed). -/
def grainAr [LinearOrder K] [Traits K] (c : ArClass) (base' : Nat) : ArClass :=
  ⟨GrainTransformer K c.Obj, GrainTransformer.save c, GrainTransformer.load c base'⟩

/-- What of a grain transformer has to fit an archive: fewer than 2^64 grains, each of which survives, with its
transformer. -/
structure GrainsSurvive [LinearOrder K] [Fits K] (c : ArClass) (m : OMap K c.Obj) : Prop where
  count : m.entries.length < 2 ^ 64
  grain : ∀ k t, m.find? k = some t → Fits.fits k ∧ RoundTrips c t

private theorem loop_trips [LinearOrder K] [Traits K] [Fits K] [Codec K] (c : ArClass) (l : List (K × c.Obj))
    (hl : ∀ e ∈ l, Fits.fits e.1 ∧ RoundTrips c e.2) :
    ∃ bs, Writes (grainSaveLoop c l) bs ∧
      ∀ (m r : OMap K c.Obj), r.entries = m.entries ++ l →
        Reads (grainLoadLoop c l.length m) bs r ∧ Truncs (grainLoadLoop c l.length m) bs := by
  induction l with
  | nil =>
    refine ⟨[], Writes.pure, fun m r hr => ⟨?_, Truncs.nil _⟩⟩
    have : r = m := OMap.ext' (by simpa using hr)
    subst this
    exact Reads.pure _
  | cons e l ih =>
    obtain ⟨bs, w, rt⟩ := ih (fun x hx => hl x (by simp [hx]))
    obtain ⟨h1, b1, w1, r1, t1⟩ := hl e (by simp)
    refine ⟨Codec.bytes e.1 ++ (b1 ++ bs), ?_, fun m r hr => ?_⟩
    · exact Writes.bind (Codec.writes e.1 h1) (Writes.bind w1 w)
    · have hsort := r.sorted
      rw [hr] at hsort
      have hlast : emplaceSorted e.1 e.2 m.entries = m.entries ++ [e] := by
        apply emplaceSorted_last
        intro x hx
        exact (List.pairwise_append.1 hsort).2.2 x hx e (by simp)
      have hnew : m.find? e.1 = none := by
        rcases hf : m.find? e.1 with _ | v
        · rfl
        · exact absurd ((List.pairwise_append.1 hsort).2.2 _ (m.mem_of_find? _ _ hf) e (by simp)) (lt_irrefl _)
      obtain ⟨i1, i2⟩ := rt (m.emplace e.1 e.2) r (by
        show r.entries = emplaceSorted e.1 e.2 m.entries ++ l
        rw [hlast, hr]
        simp)
      have hif : (if (m.find? e.1).isSome then M.throw .runtimeError else
          grainLoadLoop c l.length (m.emplace e.1 e.2) : M Archive _) = grainLoadLoop c l.length (m.emplace e.1 e.2) := by
        rw [hnew]; rfl
      constructor
      · refine Reads.bind (Codec.reads e.1 h1) (Reads.bind r1 ?_)
        show Reads (if (m.find? e.1).isSome then M.throw .runtimeError else
          grainLoadLoop c l.length (m.emplace e.1 e.2)) bs r
        rw [hif]; exact i1
      · refine Truncs.bind (Codec.reads e.1 h1) (Codec.truncs e.1 h1) (Truncs.bind r1 t1 ?_)
        show Truncs (if (m.find? e.1).isSome then M.throw .runtimeError else
          grainLoadLoop c l.length (m.emplace e.1 e.2)) bs
        rw [hif]; exact i2

private theorem u64_toNat {n : Nat} (h : n < 2 ^ 64) : (UInt64.ofNat n).toNat = n := by
  simp only [UInt64.toNat_ofNat']
  exact Nat.mod_eq_of_lt h

/-- The part of `load` after the map. -/
private def loadTail [LinearOrder K] (c : ArClass) (base' : Nat) (m : OMap K c.Obj) (has : Bool) :
    M Archive (GrainTransformer K c.Obj) :=
  if has = false then
    if m.entries.length = 0 then M.throw .runtimeError
    else pure ⟨true, none, m⟩
  else Archive.clone base' >>= fun ar => pure ⟨m.entries.isEmpty, some (c.load ar).1, m⟩

private theorem load_eq [LinearOrder K] [Traits K] (c : ArClass) (base' : Nat) :
    (GrainTransformer.load c base' : M Archive (GrainTransformer K c.Obj)) =
      Scalar.read UInt64 >>= fun n => grainLoadLoop c n.toNat OMap.empty >>= fun m =>
        Scalar.read Bool >>= fun b => loadTail c base' m b := rfl

/-- The map and the flag. -/
private theorem map_trips [LinearOrder K] [Traits K] [Fits K] [Codec K] (c : ArClass) (m : OMap K c.Obj)
    (hm : GrainsSurvive c m) (f : Bool) :
    ∃ bs, Writes (Scalar.write (UInt64.ofNat m.entries.length) >>= fun _ => grainSaveLoop c m.entries >>= fun _ =>
        Scalar.write f >>= fun _ => pure ()) bs ∧
      ∀ base', ∀ v b2, Reads (loadTail c base' m f) b2 v → Truncs (loadTail c base' m f) b2 →
        Reads (GrainTransformer.load c base') (bs ++ b2) v ∧
        Truncs (GrainTransformer.load (K := K) c base') (bs ++ b2) := by
  obtain ⟨bs, w, rt⟩ := loop_trips c m.entries
    (fun e he => hm.grain e.1 e.2 (m.find?_of_mem _ _ he))
  obtain ⟨r, t⟩ := rt .empty m rfl
  refine ⟨scalarBytes (UInt64.ofNat m.entries.length) ++ (bs ++ scalarBytes f),
    ?_, fun base' v b2 hr ht => ?_⟩
  · have := Writes.bind (m₂ := fun _ => grainSaveLoop c m.entries >>= fun _ => Scalar.write f >>= fun _ => pure ())
      (Scalar.writes (UInt64.ofNat m.entries.length)) (Writes.bind w (Writes.bind (Scalar.writes f) Writes.pure))
    simpa using this
  rw [load_eq]
  simp only [List.append_assoc]
  constructor
  · refine Reads.bind (Scalar.reads _) ?_
    rw [u64_toNat hm.count]
    exact Reads.bind r (Reads.bind (Scalar.reads f) hr)
  · refine Truncs.bind (Scalar.reads _) (Scalar.truncs _) ?_
    rw [u64_toNat hm.count]
    exact Truncs.bind r t (Truncs.bind (Scalar.reads f) (Scalar.truncs f) ht)

/-- **C38 (partial: without a function for new grains).**  A trained grain transformer without a function for new grains
survives saving and loading — any number of times, since the loaded object equals the saved one. -/
theorem C38_reload_partial [LinearOrder K] [Traits K] [Fits K] [Codec K] (c : ArClass) (base' : Nat)
    (m : OMap K c.Obj) (hm : GrainsSurvive c m) (g : GrainTransformer K c.Obj)
    (hg : GrainTransformer.newMap m none = .ok g) : RoundTrips (grainAr c base') g := by
  unfold GrainTransformer.newMap at hg
  by_cases hne : m.entries.length = 0
  · rw [if_pos hne] at hg; cases hg
  · rw [if_neg hne] at hg
    cases hg
    obtain ⟨bs, w, h⟩ := map_trips c m hm false
    obtain ⟨r, t⟩ := h base' (⟨true, none, m⟩ : GrainTransformer K c.Obj) []
      (by simp only [loadTail, hne, if_true, if_false]; exact Reads.pure _) (Truncs.nil _)
    rw [List.append_nil] at r t
    refine ⟨bs, ?_, r, t⟩
    intro a ha
    rw [← w a ha]
    show GrainTransformer.save c ⟨true, none, m⟩ a = _
    simp only [GrainTransformer.save, if_true, Option.isSome_none]

/-- Loading at the end of some bytes, without consuming them all. -/
private theorem loadTail_create [LinearOrder K] (c : ArClass) (base' : Nat) (m : OMap K c.Obj) (t0 : c.Obj)
    (b0 : List UInt8) (hr : Reads c.load b0 t0) (h : Endian) (space base : Nat) (pre post : List UInt8)
    (hb' : Roomy space base' (b0 ++ post).length) (hne : b0 ++ post ≠ []) :
    loadTail c base' m true (.rd h space base (pre ++ (b0 ++ post)) pre.length)
      = (.ok ⟨m.entries.isEmpty, some (.ok t0), m⟩, .rd h space base (pre ++ (b0 ++ post)) pre.length) := by
  have hclone : Archive.clone base' (.rd h space base (pre ++ (b0 ++ post)) pre.length)
      = (.ok (Archive.rd h space base' (b0 ++ post) 0), .rd h space base (pre ++ (b0 ++ post)) pre.length) := by
    have hlen : 0 < (b0 ++ post).length := List.length_pos_iff.2 hne
    unfold Archive.clone
    rw [if_neg (by simp), if_neg (by
      simp only [Archive.endp, List.length_append] at hlen ⊢
      omega)]
    have hmem : Archive.memAt (.rd h space base (pre ++ (b0 ++ post)) pre.length) (base + pre.length)
        (Archive.endp (.rd h space base (pre ++ (b0 ++ post)) pre.length) - (base + pre.length)) = some (b0 ++ post) := by
      unfold Archive.memAt
      rw [if_pos (by simp only [Archive.endp, List.length_append]; omega)]
      simp only [Archive.endp, Nat.add_sub_cancel_left, List.drop_left]
      rw [List.take_of_length_le (by simp only [List.length_append]; omega)]
    rw [hmem]
    rfl
  have hload := hr h space base' [] post (by simpa using hb')
  simp only [List.nil_append, List.length_nil] at hload
  unfold loadTail
  rw [if_neg (by simp), M.bind_ok _ hclone]
  simp only [hload]
  rfl

/-- **C38 (one cycle, with a function for new grains).**  Loading what was saved gives all transformers of all grains, and
new grains get transformers equal to those the function made; but the archive is left in front of the template, so that
whatever was saved after the grain transformer is read from the wrong place. -/
theorem C38_one_cycle [LinearOrder K] [Traits K] [Fits K] [Codec K] (c : ArClass) (had : Bool)
    (m : OMap K c.Obj) (hm : GrainsSurvive c m) (hh : had = true ∨ m = .empty) (t0 : c.Obj) (b0 : List UInt8)
    (hw0 : Writes (c.save t0) b0) (hr0 : Reads c.load b0 t0) :
    ∃ bs, Writes (GrainTransformer.save c (⟨had, some (.ok t0), m⟩ : GrainTransformer K c.Obj)) (bs ++ b0) ∧
      ∀ h space base base' pre post, Roomy space base (pre ++ (bs ++ b0) ++ post).length →
        Roomy space base' (b0 ++ post).length → b0 ++ post ≠ [] →
        ∃ had', GrainTransformer.load c base' (.rd h space base (pre ++ (bs ++ b0) ++ post) pre.length)
          = (.ok (⟨had', some (.ok t0), m⟩ : GrainTransformer K c.Obj),
            .rd h space base (pre ++ (bs ++ b0) ++ post) (pre ++ bs).length) ∧
          (had' = true ↔ m.entries = []) := by
  obtain ⟨lb, lw, lrt⟩ := loop_trips c m.entries (fun e he => hm.grain e.1 e.2 (m.find?_of_mem _ _ he))
  obtain ⟨lr, _⟩ := lrt .empty m rfl
  refine ⟨scalarBytes (UInt64.ofNat m.entries.length) ++ (lb ++ scalarBytes true), ?_, ?_⟩
  · have w := Writes.bind (m₂ := fun _ => grainSaveLoop c m.entries >>= fun _ => Scalar.write true >>= fun _ => c.save t0)
      (Scalar.writes (UInt64.ofNat m.entries.length)) (Writes.bind lw (Writes.bind (Scalar.writes true) hw0))
    intro a ha
    have w' := w a ha
    simp only [List.append_assoc] at w' ⊢
    rw [← w']
    rcases hh with hh | hh
    · subst hh
      rfl
    · subst hh
      cases had
      · rfl
      · rfl
  · intro h space base base' pre post hroom hroom' hne
    refine ⟨m.entries.isEmpty, ?_, by simp⟩
    rw [load_eq]
    have hbs : pre ++ ((scalarBytes (UInt64.ofNat m.entries.length) ++ (lb ++ scalarBytes true)) ++ b0) ++ post
        = pre ++ scalarBytes (UInt64.ofNat m.entries.length) ++ (lb ++ scalarBytes true ++ b0 ++ post) := by simp
    have r1 := Scalar.reads (UInt64.ofNat m.entries.length) h space base pre (lb ++ scalarBytes true ++ b0 ++ post)
      (by rw [← hbs]; exact hroom)
    rw [← hbs] at r1
    rw [M.bind_ok _ r1, u64_toNat hm.count]
    have hbs2 : pre ++ ((scalarBytes (UInt64.ofNat m.entries.length) ++ (lb ++ scalarBytes true)) ++ b0) ++ post
        = (pre ++ scalarBytes (UInt64.ofNat m.entries.length)) ++ lb ++ (scalarBytes true ++ b0 ++ post) := by simp
    have r2 := lr h space base (pre ++ scalarBytes (UInt64.ofNat m.entries.length)) (scalarBytes true ++ b0 ++ post)
      (by rw [← hbs2]; exact hroom)
    rw [← hbs2] at r2
    rw [M.bind_ok _ r2]
    have hbs3 : pre ++ ((scalarBytes (UInt64.ofNat m.entries.length) ++ (lb ++ scalarBytes true)) ++ b0) ++ post
        = (pre ++ scalarBytes (UInt64.ofNat m.entries.length) ++ lb) ++ scalarBytes true ++ (b0 ++ post) := by simp
    have r3 := Scalar.reads true h space base (pre ++ scalarBytes (UInt64.ofNat m.entries.length) ++ lb) (b0 ++ post)
      (by rw [← hbs3]; exact hroom)
    rw [← hbs3] at r3
    rw [M.bind_ok _ r3]
    have hbs4 : pre ++ ((scalarBytes (UInt64.ofNat m.entries.length) ++ (lb ++ scalarBytes true)) ++ b0) ++ post
        = (pre ++ scalarBytes (UInt64.ofNat m.entries.length) ++ lb ++ scalarBytes true) ++ (b0 ++ post) := by simp
    rw [hbs4, loadTail_create c base' m t0 b0 hr0 h space base _ post hroom' hne]
    simp

/-- **C38 is false with a function for new grains.**  Whatever trained transformer, with at least one grain, is saved,
loaded, saved and loaded again: no grain is left. -/
theorem C38_lost_after_two_cycles [LinearOrder K] [Traits K] [Fits K] [Codec K] (c : ArClass)
    (m : OMap K c.Obj) (hm : GrainsSurvive c m) (hne : m.entries ≠ []) (t0 : c.Obj) (b0 : List UInt8)
    (hw0 : Writes (c.save t0) b0) (hr0 : Reads c.load b0 t0) (hb0 : b0 ≠ []) :
    ∃ (b1 b2 : List UInt8) (g1 : GrainTransformer K c.Obj),
      Writes (GrainTransformer.save c (⟨true, some (.ok t0), m⟩ : GrainTransformer K c.Obj)) b1 ∧
      (∀ h space base base', Roomy space base b1.length → Roomy space base' b0.length →
        (GrainTransformer.load c base' (.rd h space base b1 0)).1 = .ok g1) ∧
      g1.transformers = m ∧
      Writes (GrainTransformer.save c g1) b2 ∧
      ∀ h space base base', Roomy space base b2.length → Roomy space base' b0.length →
        ∃ g2 : GrainTransformer K c.Obj, (GrainTransformer.load c base' (.rd h space base b2 0)).1 = .ok g2 ∧
          g2.transformers.entries = [] := by
  obtain ⟨p1, w1, l1⟩ := C38_one_cycle c true m hm (.inl rfl) t0 b0 hw0 hr0
  obtain ⟨p2, w2, l2⟩ := C38_one_cycle c false (.empty : OMap K c.Obj)
    ⟨by simp [OMap.empty], fun k t h => by rw [OMap.find?_empty] at h; cases h⟩ (.inr rfl) t0 b0 hw0 hr0
  refine ⟨p1 ++ b0, p2 ++ b0, ⟨false, some (.ok t0), m⟩, w1, ?_, rfl, ?_, ?_⟩
  · intro h space base base' hr hr'
    obtain ⟨had', e, hh⟩ := l1 h space base base' [] [] (by simpa using hr) (by simpa using hr') (by simpa using hb0)
    have : had' = false := by
      cases had'
      · rfl
      · exact absurd (hh.1 rfl) hne
    subst this
    simp only [List.nil_append, List.append_nil, List.length_nil] at e
    rw [e]
  · exact w2
  · intro h space base base' hr hr'
    obtain ⟨had', e, _⟩ := l2 h space base base' [] [] (by simpa using hr) (by simpa using hr') (by simpa using hb0)
    simp only [List.nil_append, List.append_nil, List.length_nil] at e
    exact ⟨_, by rw [e], rfl⟩

/-- **C38 (grains found during execution).**  A grain transformer made without trained grains saves none of those it met
since: what it writes does not depend on them. -/
theorem C38_new_grains_not_saved [LinearOrder K] [Traits K] (c : ArClass) (f : Except Err c.Obj)
    (g : GrainTransformer K c.Obj) (hg : GrainTransformer.newCreate (some f) = .ok g) (m : OMap K c.Obj) :
    GrainTransformer.save c { g with transformers := m } = GrainTransformer.save c g := by
  unfold GrainTransformer.newCreate at hg
  cases hg
  rfl

/-! Non-vacuity: lag/lead operators per grain. -/

private theorem lag_trips : RoundTrips lagLead.ar (⟨4, 3, [0, 3, 5], 9⟩ : lagLead.Obj) :=
  library_roundTrips _ .lagLead (4, [-3, 0, 2]) _ (by rfl) ⟨by decide, by decide +kernel⟩

private def lagGrains : OMap Str lagLead.ar.Obj :=
  ⟨[(⟨[65]⟩, (⟨4, 3, [0, 3, 5], 9⟩ : lagLead.Obj)), (⟨[66, 67]⟩, (⟨4, 3, [0, 3, 5], 9⟩ : lagLead.Obj))], by decide +kernel⟩

private theorem lag_survive : GrainsSurvive lagLead.ar lagGrains := by
  refine ⟨by decide, fun k t h => ?_⟩
  have hmem := OMap.mem_of_find? _ _ _ h
  simp only [lagGrains, List.mem_cons, List.not_mem_nil, or_false] at hmem
  rcases hmem with ⟨rfl, rfl⟩ | ⟨rfl, rfl⟩ <;> exact ⟨by simp [Fits.fits], lag_trips⟩

example : ∃ g, GrainTransformer.newMap lagGrains none = .ok g ∧ RoundTrips (grainAr lagLead.ar 0) g :=
  ⟨_, rfl, C38_reload_partial _ _ _ lag_survive _ rfl⟩

example : ∃ b0, Writes (lagLead.ar.save (⟨4, 3, [0, 3, 5], 9⟩ : lagLead.Obj)) b0 ∧
    Reads lagLead.ar.load b0 (⟨4, 3, [0, 3, 5], 9⟩ : lagLead.Obj) ∧ b0 ≠ [] := by
  obtain ⟨b0, w, r, _⟩ := lag_trips
  refine ⟨b0, w, r, fun h => ?_⟩
  subst h
  have hr := r .little (2 ^ 33) 0 [] [] (by simp [Roomy])
  have : (lagLead.ar.load (.rd .little (2 ^ 33) 0 [] 0)).1 = .error .runtimeError := rfl
  simp only [List.append_nil, List.length_nil] at hr
  rw [hr] at this
  cases this

end Feat
