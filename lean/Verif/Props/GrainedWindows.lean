import Verif.Proofs.GrainedWindows
import Verif.Props.LagLead
import Verif.Props.RollingWindow
import Verif.Props.FloatWindows
/-
**C101** The life of the grained lag/lead operator and of the grained rolling windows.
-/
namespace Feat
variable {A B K T I O V α : Type}

/-! ### Any transformer that restarts -/

/-- The outputs of one series in a stretch that ends with `c`. -/
def seriesOuts (X : Xf T I O) (t0 : T) (c : Close) (xs : List I) : List O :=
  match c with
  | .flush => (X.runAll t0 xs).outs
  | .reload => (X.execAll t0 xs).outs

section
variable [LinearOrder K] [Traits K] [Fits K] [Codec K] {X : Xf T I O} {save : T → M Archive Unit} {load : M Archive T} {t0 : T}
  {Good : List I → Prop}

private theorem rd_zero (h : Endian) (space base : Nat) (bs : List UInt8) :
    (Archive.rd h space base bs 0) = Archive.rd h space base ([] ++ bs) ([] : List UInt8).length := rfl

/-- Saving and loading after the rows of a stretch. -/
private theorem after_exec (R : Restarts X save load t0 Good) {n : Nat} {g : GrainTransformer K T} (hg : Begun t0 n g)
    (xs : List (K × I)) (hgood : ∀ k, Good (ofGrain k xs)) (hfit : ∀ x ∈ xs, Fits.fits x.1) (hn : n + xs.length < 2 ^ 64) :
    ∃ (bs : List UInt8) (g' : GrainTransformer K T), Begun t0 (n + xs.length) g' ∧
      Writes (GrainTransformer.save ⟨T, save, load⟩ ((grainXf X).execAll g xs).next) bs ∧
      ∀ h space base base' pre, Roomy space base (pre ++ bs).length → Roomy space base' (pre ++ bs).length →
        (GrainTransformer.load ⟨T, save, load⟩ base' (.rd h space base (pre ++ bs) pre.length)).1 = .ok g' := by
  obtain ⟨_, _, e3, _, e5, e6, _⟩ := hg.exec R xs hgood hfit
  exact grain_reloads _ R.bytes e3 (fun k t ht => by
    obtain ⟨rfl, hf⟩ := e6 k t ht
    exact ⟨R.same _, hf⟩) e5 hn

private theorem grain_life (R : Restarts X save load t0 Good) (hist : List (List (K × I) × Close)) :
    ∀ (n : Nat) (g : GrainTransformer K T), Begun t0 n g → (∀ s ∈ hist, ∀ k, Good (ofGrain k s.1)) →
      (∀ s ∈ hist, ∀ x ∈ s.1, Fits.fits x.1) → n + (hist.map fun s => s.1.length).sum < 2 ^ 64 →
      ∃ os, Lives (grainXf X) (GrainTransformer.save ⟨T, save, load⟩) (GrainTransformer.load ⟨T, save, load⟩) g hist os ∧
        List.Forall₂ (fun s o => ∀ k, ofGrain k o = seriesOuts X t0 s.2 (ofGrain k s.1)) hist os := by
  induction hist with
  | nil => intro n g _ _ _ _; exact ⟨[], .nil g, .nil⟩
  | cons s hist ih =>
    intro n g hg hgood hfit hn
    obtain ⟨xs, c⟩ := s
    simp only [List.map_cons, List.sum_cons] at hn
    have h1 := hgood (xs, c) (by simp)
    have h2 := hfit (xs, c) (by simp)
    cases c with
    | flush =>
      obtain ⟨outs, g', hr, hb, ho⟩ := hg.run R xs h1 h2
      obtain ⟨os, l, f⟩ := ih (n + xs.length) g' hb (fun s hs => hgood s (by simp [hs]))
        (fun s hs => hfit s (by simp [hs])) (by omega)
      exact ⟨outs :: os, .flush _ _ _ _ _ _ hr l, .cons ho f⟩
    | reload =>
      obtain ⟨bs, g', hb, w, r⟩ := after_exec R hg xs h1 h2 (by omega)
      obtain ⟨e1, e2, _⟩ := hg.exec R xs h1 h2
      obtain ⟨os, l, f⟩ := ih (n + xs.length) g' hb (fun s hs => hgood s (by simp [hs]))
        (fun s hs => hfit s (by simp [hs])) (by omega)
      rcases hA : (grainXf X).execAll g xs with ⟨o, e, g1⟩
      rw [hA] at e1 e2 w
      simp only at e1 e2 w
      subst e1
      refine ⟨o :: os, .reload _ _ _ _ _ _ _ hA ⟨bs, w, fun h space base base' h1 h2 => ?_⟩ l, .cons e2 f⟩
      rw [rd_zero]
      exact r h space base base' [] h1 h2

/-! ### Dropping the grain -/

private theorem valuesOnly_exec {G : Type} (Y : Xf G I (K × O)) (xs : List I) (g : G) :
    (valuesOnly Y).execAll g xs = ⟨(Y.execAll g xs).outs.map (·.2), (Y.execAll g xs).err, (Y.execAll g xs).next⟩ := by
  induction xs generalizing g with
  | nil => rfl
  | cons x xs ih =>
    simp only [Xf.execAll]
    have hx : (valuesOnly Y).exec g x = ⟨(Y.exec g x).outs.map (·.2), (Y.exec g x).err, (Y.exec g x).next⟩ := rfl
    rw [hx]
    rcases Y.exec g x with ⟨o, _ | e, g'⟩
    · simp only [ih]
      simp
    · rfl

private theorem valuesOnly_run {G : Type} (Y : Xf G I (K × O)) (xs : List I) (g : G) :
    (valuesOnly Y).runAll g xs = ⟨(Y.runAll g xs).outs.map (·.2), (Y.runAll g xs).err, (Y.runAll g xs).next⟩ := by
  unfold Xf.runAll
  rw [valuesOnly_exec]
  rcases Y.execAll g xs with ⟨o, _ | e, g'⟩
  · have hx : (valuesOnly Y).flush g' = ⟨(Y.flush g').outs.map (·.2), (Y.flush g').err, (Y.flush g').next⟩ := rfl
    simp only [hx, List.map_append]
  · rfl

omit [Traits K] [Fits K] [Codec K] in
/-- One output per row: the outputs belong to the rows in order. -/
private theorem keys_in_order (hX : ∀ t x, (X.exec t x).err = none → (X.exec t x).outs.length = 1)
    (xs : List (K × I)) (g : GrainTransformer K T) (h : ((grainXf X).execAll g xs).err = none) :
    ((grainXf X).execAll g xs).outs.map (·.1) = xs.map (·.1) := by
  induction xs generalizing g with
  | nil => rfl
  | cons x xs ih =>
    rcases ht : g.transformer x.1 with e | t
    · have hex : (grainXf X).exec g x = ⟨[], some e, g⟩ := by
        show GrainTransformer.exec X g x = _
        unfold GrainTransformer.exec
        rw [ht]
      simp only [Xf.execAll, hex] at h
      cases h
    · have hex : (grainXf X).exec g x = ⟨(X.exec t x.2).grain x.1, (X.exec t x.2).err,
          { g with transformers := g.transformers.set x.1 (X.exec t x.2).next }⟩ := by
        show GrainTransformer.exec X g x = _
        unfold GrainTransformer.exec
        rw [ht]
      have h1 := hX t x.2
      rcases hr : X.exec t x.2 with ⟨o, _ | e, t'⟩
      · rw [hr] at hex h1
        simp only [Xf.execAll, hex] at h ⊢
        obtain ⟨a, rfl⟩ := List.length_eq_one_iff.1 (h1 rfl)
        have := ih _ h
        simp [Run.grain, this]
      · rw [hr] at hex
        simp only [Xf.execAll, hex] at h
        cases h

omit [Traits K] [Fits K] [Codec K] in
/-- Where the output of a row stands among those of its grain. -/
private theorem place (xs : List (K × I)) : ∀ (outs : List (K × O)), outs.map (·.1) = xs.map (·.1) →
    ∀ i k x, xs[i]? = some (k, x) → ∃ o, outs[i]? = some (k, o) ∧
      (ofGrain k outs)[(ofGrain k (xs.take i)).length]? = some o := by
  induction xs with
  | nil => intro outs _ i k x h; simp at h
  | cons e xs ih =>
    intro outs hm i k x h
    rcases outs with _ | ⟨o, outs⟩
    · simp at hm
    obtain ⟨k0, x0⟩ := e
    obtain ⟨k1, o⟩ := o
    simp only [List.map_cons, List.cons.injEq] at hm
    obtain ⟨rfl, hm⟩ := hm
    rcases i with _ | i
    · simp only [List.getElem?_cons_zero, Option.some.injEq, Prod.mk.injEq] at h
      obtain ⟨rfl, rfl⟩ := h
      refine ⟨o, rfl, ?_⟩
      rw [ofGrain_cons_self]
      simp [ofGrain]
    · simp only [List.getElem?_cons_succ] at h ⊢
      obtain ⟨o', h1, h2⟩ := ih outs hm i k x h
      refine ⟨o', h1, ?_⟩
      rw [List.take_succ_cons]
      by_cases hk : k = k1
      · subst hk
        rw [ofGrain_cons_self, ofGrain_cons_self, List.length_cons, List.getElem?_cons_succ]
        exact h2
      · rw [ofGrain_cons_other _ _ hk, ofGrain_cons_other _ _ hk]
        exact h2

/-- The version of the decorator. -/
private theorem decorator_trips : ∃ vb, Writes (inferenceOnly.save ()) vb ∧ Reads inferenceOnly.load vb () := by
  obtain ⟨vb, w, r, _⟩ := library_roundTrips inferenceOnly .inferenceOnly () () rfl trivial
  exact ⟨vb, w, r⟩

private theorem pipeline_life (R : Restarts X save load t0 Good)
    (hX : ∀ t x, (X.exec t x).err = none → (X.exec t x).outs.length = 1)
    (hF : ∀ t, (X.flush t).outs = []) (hist : List (List (K × I) × Close)) :
    ∀ (n : Nat) (g : GrainTransformer K T), Begun t0 n g → (∀ s ∈ hist, ∀ k, Good (ofGrain k s.1)) →
      (∀ s ∈ hist, ∀ x ∈ s.1, Fits.fits x.1) → n + (hist.map fun s => s.1.length).sum < 2 ^ 64 →
      ∃ os, Lives (valuesOnly (grainXf X)) (pipelineSave ⟨T, save, load⟩) (pipelineLoad ⟨T, save, load⟩) g hist os ∧
        List.Forall₂ (fun s o => o.length = s.1.length ∧ ∀ i k x, s.1[i]? = some (k, x) → ∃ v, o[i]? = some v ∧
          (X.execAll t0 (ofGrain k s.1)).outs[(ofGrain k (s.1.take i)).length]? = some v) hist os := by
  obtain ⟨vb, vw, vr⟩ := decorator_trips
  have flush_outs : ∀ (l : List (K × T)) (m : OMap K T), (flushGrains X l m).outs = [] := by
    intro l
    induction l with
    | nil => intro m; rfl
    | cons e l ih =>
      obtain ⟨k, t⟩ := e
      intro m
      have h := hF t
      simp only [flushGrains]
      rcases hf : X.flush t with ⟨o, _ | x, t'⟩
      · rw [hf] at h
        simp only at h ⊢
        subst h
        rw [ih]
        rfl
      · rw [hf] at h
        simp only at h ⊢
        subst h
        rfl
  have run_outs : ∀ (g : GrainTransformer K T) xs, ((grainXf X).runAll g xs).err = none →
      ((grainXf X).runAll g xs).outs = ((grainXf X).execAll g xs).outs ∧ ((grainXf X).execAll g xs).err = none := by
    intro g xs h
    unfold Xf.runAll at h ⊢
    rcases hE : (grainXf X).execAll g xs with ⟨o, _ | e, g'⟩ <;> rw [hE] at h
    · refine ⟨?_, rfl⟩
      show o ++ (flushGrains X g'.transformers.entries g'.transformers).outs = o
      rw [flush_outs, List.append_nil]
    · simp at h
  have series : ∀ (g : GrainTransformer K T) n (xs : List (K × I)), Begun t0 n g → (∀ k, Good (ofGrain k xs)) →
      (∀ x ∈ xs, Fits.fits x.1) → ((grainXf X).execAll g xs).outs.length = xs.length ∧ ∀ i k x, xs[i]? = some (k, x) →
        ∃ v, (((grainXf X).execAll g xs).outs.map (·.2))[i]? = some v ∧
          (X.execAll t0 (ofGrain k xs)).outs[(ofGrain k (xs.take i)).length]? = some v := by
    intro g n xs hg h1 h2
    obtain ⟨e1, e2, _⟩ := hg.exec R xs h1 h2
    have hk := keys_in_order hX xs g e1
    refine ⟨by simpa using congrArg List.length hk, fun i k x hx => ?_⟩
    obtain ⟨o, o1, o2⟩ := place xs _ hk i k x hx
    refine ⟨o, by simp [o1], ?_⟩
    rw [← e2 k]
    exact o2
  induction hist with
  | nil => intro n g _ _ _ _; exact ⟨[], .nil g, .nil⟩
  | cons s hist ih =>
    intro n g hg hgood hfit hn
    obtain ⟨xs, c⟩ := s
    simp only [List.map_cons, List.sum_cons] at hn
    have h1 := hgood (xs, c) (by simp)
    have h2 := hfit (xs, c) (by simp)
    obtain ⟨sl, sr⟩ := series g n xs hg h1 h2
    cases c with
    | flush =>
      obtain ⟨outs, g', hr, hb, _⟩ := hg.run R xs h1 h2
      obtain ⟨os, l, f⟩ := ih (n + xs.length) g' hb (fun s hs => hgood s (by simp [hs]))
        (fun s hs => hfit s (by simp [hs])) (by omega)
      have hv := valuesOnly_run (grainXf X) xs g
      obtain ⟨ro, _⟩ := run_outs g xs (by rw [hr])
      rw [hr] at hv ro
      simp only at ro
      rw [← ro] at sl sr
      exact ⟨outs.map (·.2) :: os, .flush _ _ _ _ _ _ hv l, .cons ⟨by simpa using sl, sr⟩ f⟩
    | reload =>
      obtain ⟨bs, g', hb, w, r⟩ := after_exec R hg xs h1 h2 (by omega)
      obtain ⟨e1, e2, _⟩ := hg.exec R xs h1 h2
      obtain ⟨os, l, f⟩ := ih (n + xs.length) g' hb (fun s hs => hgood s (by simp [hs]))
        (fun s hs => hfit s (by simp [hs])) (by omega)
      have hv := valuesOnly_exec (grainXf X) xs g
      rw [e1] at hv
      refine ⟨_ :: os, .reload _ _ _ _ _ _ _ hv ⟨vb ++ bs, ?_, fun h space base base' q1 q2 => ?_⟩ l,
        .cons ⟨by simpa using sl, sr⟩ f⟩
      · have hw := Writes.bind (m₂ := fun _ => GrainTransformer.save ⟨T, save, load⟩ ((grainXf X).execAll g xs).next)
          (Writes.bind (m₁ := Pure.pure ()) (m₂ := fun _ => inferenceOnly.save ()) Writes.pure vw) w
        exact hw
      · have hv1 : Reads (chainLoad [some inferenceOnly.ar]) vb ((), ()) :=
          Reads.bind (m := (Pure.pure () : M Archive Unit)) (b₁ := []) (Reads.pure ()) (Reads.map (fun x => (x, ())) vr)
        have hv2 := hv1 h space base [] bs (by simpa using q1)
        simp only [List.nil_append, List.length_nil] at hv2
        have hv3 := r h space base base' vb q1 q2
        unfold pipelineLoad pipelineAr
        simp only
        show (((chainLoad [some inferenceOnly.ar] >>= fun r => GrainTransformer.load ⟨T, save, load⟩ base' >>= fun t =>
          Pure.pure (t, r)) >>= fun t => Pure.pure t.1) _).1 = _
        rw [M.bind_run, M.bind_ok _ hv2, M.bind_run]
        rcases hl : GrainTransformer.load ⟨T, save, load⟩ base' (.rd h space base (vb ++ bs) vb.length) with ⟨x, a⟩
        rw [hl] at hv3
        simp only at hv3
        subst hv3
        rfl
end


/-! ### Lag/lead -/

/-- The outputs of the lag/lead operator for one series `xs`: for each row, in order, the matrix of the values at the
offsets.  Without a flush the last rows, as many as the furthest offset looks ahead, are missing. -/
def LagLeadOutputs (null : A) (H : Nat) (deltas : List Int) (xs : List A) (c : Close) (outs : List (List (List A))) : Prop :=
  outs.length = (match c with
    | .flush => xs.length
    | .reload => xs.length - lead deltas) ∧
  ∀ i < outs.length, ∃ m, outs[i]? = some m ∧ m.length = deltas.length ∧
    ∀ (k : Nat) d, deltas[k]? = some d → ∃ row, m[k]? = some row ∧ row.length = H ∧
      ∀ j < H, row[j]? = some (lagLeadCell null xs H d i j)

private theorem load_nonempty (c : TClass) (hv : c.versioned = true) (bs : List UInt8) (t : c.Obj) (h : Reads c.load bs t) :
    bs ≠ [] := by
  rintro rfl
  obtain ⟨e, a', h2, _⟩ := Scalar.truncs (1 : UInt16) .little (2 ^ 64) 0 [] 0 (by decide) (by unfold Roomy; decide)
  have h1 := h .little (2 ^ 64) 0 [] [] (by unfold Roomy; decide)
  unfold TClass.load readVersion at h1
  rw [if_pos hv] at h1
  simp only [List.append_nil, List.length_nil, List.take_zero] at h1 h2
  rw [M.bind_run, M.bind_run, h2] at h1
  cases h1

private theorem lagLead_same (null : A) (conv : B → A) (t : LagLead A) (xs : List B) :
    ((lagLeadXf null conv).execAll t xs).next.params = t.params := by
  induction xs generalizing t with
  | nil => rfl
  | cons x xs ih =>
    have hp : ((lagLeadXf null conv).exec t x).next.params = t.params := by
      show (t.step (conv x)).next.params = _
      unfold LagLead.step
      simp only
      split
      · rfl
      · split
        · rfl
        · split <;> rfl
    simp only [Xf.execAll]
    rcases hr : (lagLeadXf null conv).exec t x with ⟨o, _ | e, t'⟩ <;> rw [hr] at hp
    · exact (ih t').trans hp
    · exact hp

/-- **C101** Grained lag/lead operators.  For every history of rows of any number of interleaved series, flushes, and
saving and loading at any time and as often as one likes: every call succeeds, and between two of these events every
series gets the outputs of the operator for its own rows since the last of them. -/
theorem C101_lag_lead [LinearOrder K] [Traits K] [Fits K] [Codec K] (null : A) (conv : B → A) (H : UInt32)
    (hH : 0 < H.toNat) (hH' : H.toNat < 2 ^ 31) (deltas : List Int64) (hne : deltas ≠ []) (hnum : deltas.length < 2 ^ 31)
    (hb : ∀ δ ∈ deltas, -2 ^ 31 ≤ δ.toInt ∧ δ.toInt < 2 ^ 31) :
    ∃ t0 : LagLead A, LagLead.new null H deltas = .ok t0 ∧ ∀ hist : List (List (K × B) × Close),
      (∀ s ∈ hist, ∀ x ∈ s.1, Fits.fits x.1) → (hist.map fun s => s.1.length).sum < 2 ^ 64 →
      ∃ os, Lives (grainXf (lagLeadXf null conv)) (GrainTransformer.save (lagLeadAr null))
          (GrainTransformer.load (lagLeadAr null)) ⟨false, some (.ok t0), .empty⟩ hist os ∧
        List.Forall₂ (fun s o => ∀ k, LagLeadOutputs null H.toNat (deltas.map Int64.toInt) ((ofGrain k s.1).map conv) s.2
          (ofGrain k o)) hist os := by
  obtain ⟨t0, hnew, hrun⟩ := C30_lag_lead null conv H hH hH' deltas hne hnum hb
  refine ⟨t0, hnew, fun hist hfit htot => ?_⟩
  have R : Restarts (lagLeadXf null conv) (lagLeadAr null).save (lagLeadAr null).load t0 (fun _ => True) := by
    refine ⟨?_, fun xs => ?_, fun xs _ => ?_, ?_⟩
    · unfold LagLead.new at hnew
      rcases hm : lagLead.make (H, deltas) with e | p
      · rw [hm] at hnew; cases hnew
      · rw [hm] at hnew
        obtain ⟨b0, w, r, tr⟩ := library_roundTrips lagLead .lagLead (H, deltas) p hm ⟨show deltas.length < 2 ^ 32 by omega, hb⟩
        have hp : t0.params = p := by
          simp only at hnew
          split at hnew
          · cases hnew
          · cases hnew; rfl
        have hof : LagLead.ofParams null p = .ok t0 := hnew
        have hl : Reads (liftExcept (LagLead.ofParams null p)) [] t0 := by rw [hof]; exact Reads.pure _
        refine ⟨b0, load_nonempty lagLead rfl b0 p r, ?_, ?_, ?_⟩
        · show Writes (lagLead.save t0.params) b0
          rw [hp]; exact w
        · have := Reads.bind (f := fun p => liftExcept (LagLead.ofParams null p)) r hl
          rwa [List.append_nil] at this
        · have := Truncs.bind (f := fun p => liftExcept (LagLead.ofParams null p)) r tr (Truncs.nil _)
          rwa [List.append_nil] at this
    · show lagLead.save _ = lagLead.save _
      rw [lagLead_same]
    · obtain ⟨outs, ho, _⟩ := hrun xs
      exact ⟨outs, ho⟩
    · obtain ⟨outs, ho, hl, _⟩ := hrun []
      have : outs = [] := by simpa using hl
      subst this
      exact ho
  obtain ⟨os, l, f⟩ := grain_life (K := K) R hist 0 ⟨false, some (.ok t0), .empty⟩
    ⟨rfl, fun k t h => (by rw [OMap.find?_empty] at h; cases h), by simp [OMap.empty]⟩ (fun _ _ _ => trivial) hfit (by omega)
  refine ⟨os, l, f.imp fun s o h k => ?_⟩
  obtain ⟨outs, ho, hl, hc, ht⟩ := hrun (ofGrain k s.1)
  rw [h k]
  unfold seriesOuts LagLeadOutputs
  cases s.2 with
  | flush =>
    simp only [ho, List.length_map]
    exact ⟨hl, fun i hi => by
      obtain ⟨m, m1, m2, m3⟩ := hc i (by omega)
      refine ⟨m, m1, m2, fun k d hd => ?_⟩
      rw [List.getElem?_map] at hd
      rcases hk : deltas[k]? with _ | d'
      · rw [hk] at hd; cases hd
      · rw [hk] at hd
        cases hd
        exact m3 k d' hk⟩
  | reload =>
    simp only [ht, List.length_map, List.length_take]
    refine ⟨by omega, fun i hi => ?_⟩
    obtain ⟨m, m1, m2, m3⟩ := hc i (by omega)
    refine ⟨m, by rw [List.getElem?_take_of_lt (by omega)]; exact m1, m2, fun k d hd => ?_⟩
    rw [List.getElem?_map] at hd
    rcases hk : deltas[k]? with _ | d'
    · rw [hk] at hd; cases hd
    · rw [hk] at hd
      cases hd
      exact m3 k d' hk

/-! ### Rolling windows -/

private theorem rolling_params (agg : List A → Except Err B) (t : Rolling A) (x : A) :
    (t.exec agg x).next.params = t.params := by
  unfold Rolling.exec
  simp only
  split <;> rfl

private theorem coded_exec (agg : UInt8 → List A → Except Err B) (xs : List A) : ∀ t : Rolling A,
    (codedXf agg).execAll t xs = (rollingXf (agg t.params.calculation)).execAll t xs ∧
    ((codedXf agg).execAll t xs).next.params = t.params := by
  induction xs with
  | nil => intro t; exact ⟨rfl, rfl⟩
  | cons x xs ih =>
    intro t
    have h1 : (codedXf agg).exec t x = t.exec (agg t.params.calculation) x := rfl
    have h2 : (rollingXf (agg t.params.calculation)).exec t x = t.exec (agg t.params.calculation) x := rfl
    have hp := rolling_params (agg t.params.calculation) t x
    simp only [Xf.execAll, h1, h2]
    rcases hr : t.exec (agg t.params.calculation) x with ⟨o, _ | e, t'⟩ <;> rw [hr] at hp
    · simp only at hp ⊢
      obtain ⟨i1, i2⟩ := ih t'
      rw [i1, hp]
      rw [i1, hp] at i2
      exact ⟨rfl, i2⟩
    · exact ⟨rfl, hp⟩

private theorem coded_run (agg : UInt8 → List A → Except Err B) (xs : List A) (t : Rolling A) :
    (codedXf agg).runAll t xs = (rollingXf (agg t.params.calculation)).runAll t xs := by
  obtain ⟨h1, h2⟩ := coded_exec agg xs t
  unfold Xf.runAll
  rw [h1] at h2 ⊢
  rcases hr : (rollingXf (agg t.params.calculation)).execAll t xs with ⟨o, _ | e, t'⟩
  · rfl
  · rfl

private theorem take_ofGrain [DecidableEq K] (k : K) (xs : List (K × A)) (i : Nat) :
    (ofGrain k xs).take (ofGrain k (xs.take i)).length = ofGrain k (xs.take i) := by
  have h : ofGrain k xs = ofGrain k (xs.take i) ++ ofGrain k (xs.drop i) := by
    rw [← ofGrain_append, List.take_append_drop]
  rw [h, List.take_left]

theorem of_grain_mem [DecidableEq K] {P : A → Prop} {k : K} {x : A} {rows : List (K × A)}
    (h : ∀ y ∈ rows, P y.2) (hx : x ∈ ofGrain k rows) : P x := by
  unfold ofGrain at hx
  obtain ⟨y, hy, hk⟩ := List.mem_filterMap.1 hx
  split at hk
  · cases hk; exact h y hy
  · cases hk

private theorem ofGrain_take_succ [DecidableEq K] (k : K) (x : A) (xs : List (K × A)) (i : Nat) (h : xs[i]? = some (k, x)) :
    ofGrain k (xs.take (i + 1)) = ofGrain k (xs.take i) ++ [x] := by
  rw [List.take_add_one, h, ofGrain_append]
  simp [ofGrain]

/-- **C101** Grained rolling windows.  For every history of rows of any number of interleaved series, flushes, and saving
and loading at any time and as often as one likes, with the calculation that the number `c` stands for able to process
the windows: every call succeeds, and every row gets, in order, the aggregates of the rows of its own series since the
last of these events. -/
theorem C101_rolling [LinearOrder K] [Traits K] [Fits K] [Codec K] (agg : UInt8 → List A → Except Err B)
    (Agg : List A → B → Prop) (c : UInt8) (H W minW : UInt32) (hH : 0 < H.toNat)
    (hmin0 : 0 < minW.toNat) (hmin : minW.toNat ≤ W.toNat) (hsum : H.toNat + W.toNat < 2 ^ 32) :
    ∃ t0 : Rolling A, Rolling.new c H W minW = .ok t0 ∧ ∀ hist : List (List (K × A) × Close),
      (∀ s ∈ hist, ∀ x ∈ s.1, Fits.fits x.1) → (hist.map fun s => s.1.length).sum < 2 ^ 64 →
      (∀ s ∈ hist, ∀ k w, w ≠ [] → w.length ≤ W.toNat → w <:+: ofGrain k s.1 → ∃ v, agg c w = .ok v ∧ Agg w v) →
      ∃ os, Lives (valuesOnly (grainXf (codedXf agg))) (pipelineSave (rollingAr A)) (pipelineLoad (rollingAr A))
          ⟨false, some (.ok t0), .empty⟩ hist os ∧
        List.Forall₂ (fun s o => GrainedRolling Agg H.toNat W.toNat minW.toNat s.1 o) hist os := by
  obtain ⟨t0, hnew, hrun⟩ := rolling_gen (agg c) Agg c H W minW hH hmin0 hmin hsum
  refine ⟨t0, hnew, fun hist hfit htot hagg => ?_⟩
  unfold Rolling.new at hnew
  rcases hm : rollingWindow.make (c, H, W, minW) with e | p
  · rw [hm] at hnew; cases hnew
  rw [hm] at hnew
  have hp : t0.params = p := by
    simp only at hnew
    split at hnew
    · cases hnew
    · cases hnew; rfl
  have hcode : t0.params.calculation = c := by
    rw [hp]
    simp only [rollingWindow] at hm
    repeat' split at hm
    all_goals first | cases hm; done | skip
    cases hm; rfl
  have R : Restarts (codedXf agg) (rollingAr A).save (rollingAr A).load t0
      (fun xs => ∀ w, w ≠ [] → w.length ≤ W.toNat → w <:+: xs → ∃ v, agg c w = .ok v ∧ Agg w v) := by
    refine ⟨?_, fun xs => ?_, fun xs hx => ?_, ?_⟩
    · obtain ⟨b0, w, r, tr⟩ := library_roundTrips rollingWindow .rollingWindow (c, H, W, minW) p hm ⟨trivial, trivial, trivial, trivial⟩
      have hof : Rolling.ofParams p = .ok t0 := hnew
      have hl : Reads (liftExcept (Rolling.ofParams p)) [] t0 := by rw [hof]; exact Reads.pure _
      refine ⟨b0, load_nonempty rollingWindow rfl b0 p r, ?_, ?_, ?_⟩
      · show Writes (rollingWindow.save t0.params) b0
        rw [hp]; exact w
      · have := Reads.bind (f := fun p => liftExcept (Rolling.ofParams (A := A) p)) r hl
        rwa [List.append_nil] at this
      · have := Truncs.bind (f := fun p => liftExcept (Rolling.ofParams (A := A) p)) r tr (Truncs.nil _)
        rwa [List.append_nil] at this
    · show rollingWindow.save _ = rollingWindow.save _
      rw [(coded_exec agg xs t0).2]
    · obtain ⟨outs, ho, _⟩ := hrun xs hx
      rw [coded_run, hcode]
      exact ⟨outs, ho⟩
    · obtain ⟨outs, ho, h2, hs⟩ := hrun [] (fun w h1 _ h2 => absurd (List.infix_nil.1 h2) h1)
      have : outs = [] := by simpa using hs.length
      subst this
      have := coded_run agg [] t0
      rw [hcode, ho] at this
      exact this
  obtain ⟨os, l, f⟩ := pipeline_life (K := K) R (fun t x h => by
      have h' : (t.exec (agg t.params.calculation) x).err = none := h
      show (t.exec (agg t.params.calculation) x).outs.length = 1
      unfold Rolling.exec at h' ⊢
      simp only at h' ⊢
      split at h'
      · cases h'
      · rfl) (fun t => rfl) hist 0 ⟨false, some (.ok t0), .empty⟩
    ⟨rfl, fun k t h => (by rw [OMap.find?_empty] at h; cases h), by simp [OMap.empty]⟩ hagg hfit (by omega)
  refine ⟨os, l, ?_⟩
  have hmem : ∀ (h1 : List (List (K × A) × Close)) (o1 : List (List (List (Option B)))), (∀ s ∈ h1, s ∈ hist) →
      List.Forall₂ (fun s o => o.length = s.1.length ∧ ∀ i k x, s.1[i]? = some (k, x) → ∃ v, o[i]? = some v ∧
          ((codedXf agg).execAll t0 (ofGrain k s.1)).outs[(ofGrain k (s.1.take i)).length]? = some v) h1 o1 →
      List.Forall₂ (fun s o => GrainedRolling Agg H.toNat W.toNat minW.toNat s.1 o) h1 o1 := by
    intro h1 o1 hsub hf
    induction hf with
    | nil => exact .nil
    | @cons s o h1 o1 hso _ ih =>
      refine .cons ⟨hso.1, fun i k x hx => ?_⟩ (ih fun s hs => hsub s (by simp [hs]))
      obtain ⟨row, hrow, hplace⟩ := hso.2 i k x hx
      obtain ⟨outs, ho, he, hs⟩ := hrun (ofGrain k s.1) (hagg s (hsub s (by simp)) k)
      rw [(coded_exec agg _ t0).1, hcode, he] at hplace
      have hown := ofGrain_take_succ k x s.1 i hx
      have hlt : (ofGrain k (s.1.take i)).length < (ofGrain k s.1).length := by
        rw [← hs.length]
        exact (List.getElem?_eq_some_iff.1 hplace).1
      obtain ⟨row', r1, r2, r3⟩ := hs.rows _ hlt
      rw [hplace] at r1
      cases Option.some.inj r1
      refine ⟨row, hrow, r2, fun j hj => ?_⟩
      obtain ⟨q1, q2⟩ := r3 j hj
      have hlen : (ofGrain k (s.1.take (i + 1))).length = (ofGrain k (s.1.take i)).length + 1 := by
        rw [hown]; simp
      refine ⟨fun h => q1 (by omega), fun h => ?_⟩
      obtain ⟨v, v1, v2⟩ := q2 (by omega)
      refine ⟨v, ?_, v2⟩
      have ht := take_ofGrain k s.1 (i + 1)
      have e : windowBefore (ofGrain k s.1) W.toNat (H.toNat - j) (ofGrain k (s.1.take i)).length
          = latest W.toNat ((ofGrain k (s.1.take (i + 1))).take
            ((ofGrain k (s.1.take (i + 1))).length - (H.toNat - j))) := by
        unfold windowBefore latest lastN
        rw [hlen] at ht ⊢
        rw [← ht, List.take_take, min_eq_left (by omega)]
      rw [← e]
      exact v1
  exact hmem hist os (fun _ h => h) f

/-! ### The windows of numbers as the C interface offers them -/

/-- **C101** The numbers of the calculation.  A window made with 1 gives minima; one made with any other number gives
maxima, although only 2 stands for the maximum; analytical windows give means whatever the number. -/
theorem C101_codes (mn mx : List V → Except Err V) (mean : List V → Except Err B) (code : UInt8) :
    (code = 1 → simpleCalc mn mx code = mn) ∧ (code ≠ 1 → simpleCalc mn mx code = mx) ∧ analyticalCalc mean code = mean :=
  ⟨fun h => if_pos h, fun h => if_neg h, rfl⟩

namespace FloatWindows
open FloatText FloatArith FloatScalers
variable {N : Type} [FloType N] [FloatArith.Lawful N]

/-- **C101** Grained rolling minima of finite numbers, as bit patterns. -/
theorem C101_rolling_min [LinearOrder K] [Traits K] [Fits K] [Codec K] (H W minW : UInt32) (hH : 0 < H.toNat)
    (hmin0 : 0 < minW.toNat) (hmin : minW.toNat ≤ W.toNat) (hsum : H.toNat + W.toNat < 2 ^ 32) :
    ∃ t0 : Rolling N, Rolling.new 1 H W minW = .ok t0 ∧ ∀ hist : List (List (K × N) × Close),
      (∀ s ∈ hist, ∀ x ∈ s.1, Fits.fits x.1 ∧ FloatText.Finite x.2) → (hist.map fun s => s.1.length).sum < 2 ^ 64 →
      ∃ os, Lives (valuesOnly (grainXf (codedXf (simpleCalc minCalc maxCalc)))) (pipelineSave (rollingAr N))
          (pipelineLoad (rollingAr N)) ⟨false, some (.ok t0), .empty⟩ hist os ∧
        List.Forall₂ (fun s o => GrainedRolling (Least value) H.toNat W.toNat minW.toNat s.1 o) hist os := by
  obtain ⟨t0, h1, h2⟩ := C101_rolling (K := K) (simpleCalc (minCalc (T := N)) maxCalc) (Least value) 1 H W minW hH hmin0
    hmin hsum
  refine ⟨t0, h1, fun hist hx hn => h2 hist (fun s hs x h => (hx s hs x h).1) hn fun s hs k w hw _ hin => ?_⟩
  rw [(C101_codes (minCalc (T := N)) maxCalc (minCalc (T := N)) 1).1 rfl]
  exact C82_min w hw (finite_infix (fun x h => of_grain_mem (P := fun x => FloatText.Finite x)
    (fun y hy => (hx s hs y hy).2) h) hin)

/-- **C101** Grained rolling maxima of finite numbers that are not below the smallest positive normal number (of others it
is false: `C82_max_refuted`), for every number of the calculation but 1. -/
theorem C101_rolling_max_partial [LinearOrder K] [Traits K] [Fits K] [Codec K] (c : UInt8) (hc : c ≠ 1) (H W minW : UInt32)
    (hH : 0 < H.toNat) (hmin0 : 0 < minW.toNat) (hmin : minW.toNat ≤ W.toNat) (hsum : H.toNat + W.toNat < 2 ^ 32) :
    ∃ t0 : Rolling N, Rolling.new c H W minW = .ok t0 ∧ ∀ hist : List (List (K × N) × Close),
      (∀ s ∈ hist, ∀ x ∈ s.1, Fits.fits x.1 ∧ FloatText.Finite x.2 ∧ value (smallestNormal : N) ≤ value x.2) →
      (hist.map fun s => s.1.length).sum < 2 ^ 64 →
      ∃ os, Lives (valuesOnly (grainXf (codedXf (simpleCalc minCalc maxCalc)))) (pipelineSave (rollingAr N))
          (pipelineLoad (rollingAr N)) ⟨false, some (.ok t0), .empty⟩ hist os ∧
        List.Forall₂ (fun s o => GrainedRolling (Greatest value) H.toNat W.toNat minW.toNat s.1 o) hist os := by
  obtain ⟨t0, h1, h2⟩ := C101_rolling (K := K) (simpleCalc (minCalc (T := N)) maxCalc) (Greatest value) c H W minW hH hmin0
    hmin hsum
  refine ⟨t0, h1, fun hist hx hn => h2 hist (fun s hs x h => (hx s hs x h).1) hn fun s hs k w hw _ hin => ?_⟩
  rw [(C101_codes (minCalc (T := N)) maxCalc (minCalc (T := N)) c).2.1 hc]
  have hm : ∀ x ∈ w, FloatText.Finite x ∧ value (smallestNormal : N) ≤ value x := fun x h =>
    of_grain_mem (P := fun x => FloatText.Finite x ∧ value (smallestNormal : N) ≤ value x)
      (fun y hy => (hx s hs y hy).2) (hin.subset h)
  obtain ⟨a, w', rfl⟩ := List.exists_cons_of_ne_nil hw
  exact C82_max_partial _ (fun x h => (hm x h).1) a (by simp) (hm a (by simp)).2

/-- **C101** Grained rolling means, for windows whose sums stay in the lower half of the range of the type. -/
theorem C101_rolling_mean_partial [ToDouble N] [LinearOrder K] [Traits K] [Fits K] [Codec K] (c : UInt8) (H W minW : UInt32)
    (hH : 0 < H.toNat) (hmin0 : 0 < minW.toNat) (hmin : minW.toNat ≤ W.toNat) (hsum : H.toNat + W.toNat < 2 ^ 32)
    (hlen : W.toNat ≤ 2 ^ ((fmt N).frac - 1)) :
    ∃ t0 : Rolling N, Rolling.new c H W minW = .ok t0 ∧ ∀ (hist : List (List (K × N) × Close)) (B : ℚ),
      2 * (W.toNat * B) < tooLarge N →
      (∀ s ∈ hist, ∀ x ∈ s.1, Fits.fits x.1 ∧ FloatText.Finite x.2 ∧ |value x.2| ≤ B) →
      (hist.map fun s => s.1.length).sum < 2 ^ 64 →
      ∃ os, Lives (valuesOnly (grainXf (codedXf (analyticalCalc meanCalc)))) (pipelineSave (rollingAr N))
          (pipelineLoad (rollingAr N)) ⟨false, some (.ok t0), .empty⟩ hist os ∧
        List.Forall₂ (fun s o => GrainedRolling NearMean H.toNat W.toNat minW.toNat s.1 o) hist os := by
  obtain ⟨t0, h1, h2⟩ := C101_rolling (K := K) (analyticalCalc (meanCalc (T := N))) NearMean c H W minW hH hmin0 hmin hsum
  refine ⟨t0, h1, fun hist B hB hx hn => h2 hist (fun s hs x h => (hx s hs x h).1) hn fun s hs k w hw hl hin => ?_⟩
  have hm : ∀ x ∈ w, FloatText.Finite x ∧ |value x| ≤ B := fun x h =>
    of_grain_mem (P := fun x => FloatText.Finite x ∧ |value x| ≤ B) (fun y hy => (hx s hs y hy).2) (hin.subset h)
  refine C82_mean_partial w hw (fun x h => (hm x h).1) ?_ (le_trans hl hlen)
  have h3 := sum_le_of_le B w fun x h => (hm x h).2
  have hB0 : 0 ≤ B := by
    obtain ⟨a, w', rfl⟩ := List.exists_cons_of_ne_nil hw
    exact le_trans (abs_nonneg _) (hm a (by simp)).2
  have h4 : (w.length : ℚ) * B ≤ W.toNat * B := mul_le_mul_of_nonneg_right (by exact_mod_cast hl) hB0
  linarith

end FloatWindows

/-! ### Construction and training -/

/-- **C101** The estimators of lag/lead operators refuse a horizon of 0 and an empty list of offsets, and nothing else. -/
theorem C101_lag_lead_args [LinearOrder K] {σ : Type} (maps : AnnotationMaps α) (cap : Nat) (H : UInt32) (deltas : List Int64) :
    ((0 < H.toNat ∧ deltas ≠ []) → ∃ e, grainedNew (K := K) (σ := σ) (lagLeadArgs H deltas) maps cap = .ok e) ∧
    (¬ (0 < H.toNat ∧ deltas ≠ []) →
      grainedNew (K := K) (σ := σ) (lagLeadArgs H deltas) maps cap = .error .invalidArgument) := by
  unfold grainedNew lagLeadArgs
  by_cases h1 : H.toNat = 0
  · simp [h1]
  · rcases deltas with _ | ⟨d, ds⟩
    · simp [h1]
    · have : 0 < H.toNat := by omega
      simp [h1, this]

/-- **C101** The estimators of rolling windows refuse a horizon or a window size of 0 and a minimum above the maximum, and
nothing else. -/
theorem C101_rolling_args [LinearOrder K] {σ : Type} (maps : AnnotationMaps α) (cap : Nat) (H W minW : UInt32) :
    ((0 < H.toNat ∧ 0 < minW.toNat ∧ minW.toNat ≤ W.toNat) →
      ∃ e, grainedNew (K := K) (σ := σ) (rollingArgs H W minW) maps cap = .ok e) ∧
    (¬ (0 < H.toNat ∧ 0 < minW.toNat ∧ minW.toNat ≤ W.toNat) →
      grainedNew (K := K) (σ := σ) (rollingArgs H W minW) maps cap = .error .invalidArgument) := by
  unfold grainedNew rollingArgs
  constructor
  · intro ⟨h1, h2, h3⟩
    rw [if_neg (by omega), if_neg (by omega), if_neg (by omega), if_neg (by omega)]
    exact ⟨_, rfl⟩
  · intro h
    by_cases h1 : H.toNat < 1
    · rw [if_pos h1]
    · by_cases h2 : W.toNat < 1
      · rw [if_neg h1, if_pos h2]
      · by_cases h3 : minW.toNat < 1
        · rw [if_neg h1, if_neg h2, if_pos h3]
        · rw [if_neg h1, if_neg h2, if_neg h3, if_pos (by omega)]

/-- **C101** Training.  An estimator that could be constructed needs no rows: whatever batches are offered, training ends,
and the transformer made knows no series yet and makes one at the first row of each. -/
theorem C101_training [LinearOrder K] (L : StoreLens (AnnotationMaps α) α) (fresh : AnnotationMaps α) (name : String)
    (wrap : OMap K α → α) (make : Except Err T) (args : Except Err Unit) (maps : AnnotationMaps α) (cap : Nat)
    (e : Est (GrainEst K (AnnotationMaps α) α)) (he : grainedNew args maps cap = .ok e)
    (batches : List (List (K × I))) (fuel : Nat) :
    ∃ e', trainAndCreate (grainedHooks L fresh name wrap make) batches (fuel + 1) e
      = some (.ok ⟨false, some make, .empty⟩, e') := by
  rcases args with x | ⟨⟩
  · cases he
  cases he
  rcases batches with _ | ⟨b, bs⟩ <;> exact ⟨_, rfl⟩

/-- **C101** Refuted for horizons and windows of together 2^32 rows and more: the estimator accepts a horizon of 1 and
windows of up to 2^32 − 1 rows and training succeeds, but the first row throws, whichever series it belongs to. -/
theorem C101_rolling_args_refuted [LinearOrder K] (agg : UInt8 → List A → Except Err B) (L : StoreLens (AnnotationMaps α) α)
    (fresh : AnnotationMaps α) (name : String) (wrap : OMap K α → α) (maps : AnnotationMaps α) (cap : Nat) (c : UInt8)
    (H W minW : UInt32) (hH : 0 < H.toNat) (hmin0 : 0 < minW.toNat) (hmin : minW.toNat ≤ W.toNat)
    (hsum : H.toNat + W.toNat = 2 ^ 32) (batches : List (List (K × A))) (fuel : Nat) :
    ∃ e g e', grainedNew (rollingArgs H W minW) maps cap = .ok e ∧
      trainAndCreate (grainedHooks L fresh name wrap (Rolling.new c H W minW)) batches (fuel + 1) e = some (.ok g, e') ∧
      ∀ x : K × A, ((valuesOnly (grainXf (codedXf agg))).exec g x).err = some .invalidArgument ∧
        ((valuesOnly (grainXf (codedXf agg))).exec g x).outs = [] := by
  obtain ⟨e, he⟩ := (C101_rolling_args (K := K) (σ := AnnotationMaps α) maps cap H W minW).1 ⟨hH, hmin0, hmin⟩
  obtain ⟨e', ht⟩ := C101_training L fresh name wrap (Rolling.new (A := A) c H W minW) _ maps cap e he batches fuel
  have hbad : Rolling.new (A := A) c H W minW = .error .invalidArgument := by
    have hz : (H + W).toNat = 0 := by rw [UInt32.toNat_add, hsum]; rfl
    simp only [Rolling.new, rollingWindow]
    rw [if_neg (by omega), if_neg (by omega), if_neg (by omega), if_neg (by omega), if_pos hz]
  refine ⟨e, _, e', he, ht, fun x => ?_⟩
  rw [hbad]
  constructor <;> rfl

/-- Such arguments. -/
example : 0 < (1 : UInt32).toNat ∧ (1 : UInt32).toNat ≤ (0xFFFFFFFF : UInt32).toNat ∧
    (1 : UInt32).toNat + (0xFFFFFFFF : UInt32).toNat = 2 ^ 32 := by decide

/-! ### A concrete case -/

attribute [-instance] instDecidableEqList

/-- Two interleaved series, saved and loaded after three rows and flushed after two more. -/
private def someLife : List (List (List Str × F64) × Close) :=
  [([([⟨[65]⟩], FloatArith.zero false), ([⟨[66]⟩], FloatArith.largest), ([⟨[65]⟩], FloatArith.largest)], .reload),
   ([([⟨[65]⟩], FloatArith.largest), ([⟨[66]⟩, ⟨[]⟩], FloatArith.zero true)], .flush)]

/-- The hypotheses of `C101_rolling_min` are met. -/
example : ∃ t0 : Rolling F64, Rolling.new 1 2 3 1 = .ok t0 ∧ ∃ os,
    Lives (valuesOnly (grainXf (codedXf (simpleCalc FloatWindows.minCalc FloatWindows.maxCalc)))) (pipelineSave (rollingAr F64))
      (pipelineLoad (rollingAr F64)) ⟨false, some (.ok t0), .empty⟩ someLife os ∧
    List.Forall₂ (fun s o => GrainedRolling (FloatScalers.Least FloatText.value) 2 3 1 s.1 o) someLife os := by
  obtain ⟨t0, h1, h2⟩ := FloatWindows.C101_rolling_min (K := List Str) (N := F64) 2 3 1 (by decide) (by decide) (by decide)
    (by decide)
  refine ⟨t0, h1, h2 someLife ?_ (by decide)⟩
  intro s hs x hx
  have hz : ∀ b, FloatText.Finite (FloatArith.zero b : F64) := fun b => FloatArith.finite_zero b
  have hl : FloatText.Finite (FloatArith.largest : F64) := FloatArith.finite_largest
  simp only [someLife, List.mem_cons, List.not_mem_nil, or_false] at hs
  rcases hs with rfl | rfl <;> simp only [List.mem_cons, List.not_mem_nil, or_false] at hx
  · rcases hx with rfl | rfl | rfl <;> refine ⟨?_, by first | exact hz _ | exact hl⟩ <;> simp [Fits.fits]
  · rcases hx with rfl | rfl <;> refine ⟨?_, by first | exact hz _ | exact hl⟩ <;> simp [Fits.fits]

/-- The hypotheses of `C101_lag_lead` are met. -/
example : ∃ t0 : LagLead (Option F64), LagLead.new Option.none 2 [-1, 1] = .ok t0 ∧ ∃ os,
    Lives (grainXf (lagLeadXf Option.none some)) (GrainTransformer.save (lagLeadAr Option.none))
      (GrainTransformer.load (lagLeadAr Option.none)) ⟨false, some (.ok t0), .empty⟩ someLife os ∧
    List.Forall₂ (fun s o => ∀ k, LagLeadOutputs Option.none 2 [-1, 1] ((ofGrain k s.1).map some) s.2 (ofGrain k o))
      someLife os := by
  obtain ⟨t0, h1, h2⟩ := C101_lag_lead (K := List Str) (Option.none : Option F64) some 2 (by decide) (by decide) [-1, 1]
    (by decide) (by decide) (by decide)
  refine ⟨t0, h1, h2 someLife ?_ (by decide)⟩
  intro s hs x hx
  simp only [someLife, List.mem_cons, List.not_mem_nil, or_false] at hs
  rcases hs with rfl | rfl <;> simp only [List.mem_cons, List.not_mem_nil, or_false] at hx
  · rcases hx with rfl | rfl | rfl <;> simp [Fits.fits]
  · rcases hx with rfl | rfl <;> simp [Fits.fits]

end Feat
