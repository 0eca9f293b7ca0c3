import Verif.Spec.GrainedWindows
import Verif.Props.Grain
import Verif.Props.GrainArchive
import Verif.Props.PipelineExec
import Verif.Model.TimeSeriesTraining
/-
Lemmas for C101.
-/
namespace Feat
variable {K T I O G : Type}

/-! ### The life of a transformer is determined by its rows -/

private theorem roomy_exists (n : Nat) : Roomy (n + n + 2 ^ 32) 0 n := by unfold Roomy; omega

theorem ReloadsTo.unique {save : M Archive Unit} {load : Nat → M Archive G} {g g' : G}
    (h : ReloadsTo save load g) (h' : ReloadsTo save load g') : g = g' := by
  obtain ⟨bs, w, r⟩ := h
  obtain ⟨bs', w', r'⟩ := h'
  have e : bs = bs' := by
    have a1 := w (Archive.mkWriter .little 0) rfl
    have a2 := w' (Archive.mkWriter .little 0) rfl
    rw [a1] at a2
    have := congrArg (fun p => p.2.buf) a2
    simpa using this
  subst e
  have r1 := r .little _ 0 0 (roomy_exists bs.length) (roomy_exists bs.length)
  have r2 := r' .little _ 0 0 (roomy_exists bs.length) (roomy_exists bs.length)
  rw [r1] at r2
  exact Except.ok.inj r2

theorem Lives.unique {X : Xf G I O} {save : G → M Archive Unit} {load : Nat → M Archive G} {g : G}
    {hist : List (List I × Close)} {os os' : List (List O)} (h : Lives X save load g hist os)
    (h' : Lives X save load g hist os') : os = os' := by
  induction h generalizing os' with
  | nil g => cases h'; rfl
  | flush g g' xs outs rest os run go ih =>
    cases h' with
    | flush _ g2 _ outs2 _ os2 run2 go2 =>
      rw [run] at run2
      cases run2
      rw [ih go2]
  | reload g g' g'' xs outs rest os run again go ih =>
    cases h' with
    | reload _ g2 g3 _ outs2 _ os2 run2 again2 go2 =>
      rw [run] at run2
      cases run2
      cases again.unique again2
      rw [ih go2]

/-! ### What the grain transformer holds -/

private theorem setSorted_length [LinearOrder K] {V : Type} (k : K) (v : V) (l : List (K × V)) :
    (setSorted k v l).length ≤ l.length + 1 := by
  induction l with
  | nil => simp [setSorted]
  | cons e rest ih =>
    obtain ⟨k', v'⟩ := e
    simp only [setSorted]
    split
    · simp
    · split
      · simp
      · simpa using ih

/-- Executing: the flag stays, and only grains of the rows are added. -/
private theorem exec_holds [LinearOrder K] (X : Xf T I O) (xs : List (K × I)) (g : GrainTransformer K T) :
    ((grainXf X).execAll g xs).next.had = g.had ∧
    ((grainXf X).execAll g xs).next.transformers.entries.length ≤ g.transformers.entries.length + xs.length ∧
    ∀ k t, ((grainXf X).execAll g xs).next.transformers.find? k = some t →
      (∃ t', g.transformers.find? k = some t') ∨ k ∈ xs.map (·.1) := by
  induction xs generalizing g with
  | nil => exact ⟨rfl, by simp [Xf.execAll], fun k t h => .inl ⟨t, h⟩⟩
  | cons x xs ih =>
    have step : ∀ g' : GrainTransformer K T, (g' = g ∨ ∃ s, g' = { g with transformers := g.transformers.set x.1 s }) →
        g'.had = g.had ∧ g'.transformers.entries.length ≤ g.transformers.entries.length + 1 ∧
        ∀ k t, g'.transformers.find? k = some t → (∃ t', g.transformers.find? k = some t') ∨ k = x.1 := by
      intro g' hg'
      rcases hg' with rfl | ⟨s, rfl⟩
      · exact ⟨rfl, by omega, fun k t h => .inl ⟨t, h⟩⟩
      · refine ⟨rfl, setSorted_length _ _ _, fun k t h => ?_⟩
        by_cases hk : k = x.1
        · exact .inr hk
        · refine .inl ⟨t, ?_⟩
          rw [← OMap.find?_set_other g.transformers x.1 k s hk]
          exact h
    have hnext : ((grainXf X).exec g x).next = g ∨
        ∃ s, ((grainXf X).exec g x).next = { g with transformers := g.transformers.set x.1 s } := by
      show (GrainTransformer.exec X g x).next = g ∨ _
      unfold GrainTransformer.exec
      show _ ∨ ∃ s, (GrainTransformer.exec X g x).next = _
      unfold GrainTransformer.exec
      rcases g.transformer x.1 with e | t
      · exact .inl rfl
      · exact .inr ⟨_, rfl⟩
    obtain ⟨s1, s2, s3⟩ := step _ hnext
    rcases hx : (grainXf X).exec g x with ⟨o, e, g'⟩
    rw [hx] at s1 s2 s3
    rcases e with _ | e
    · obtain ⟨i1, i2, i3⟩ := ih g'
      simp only [Xf.execAll, hx]
      rcases hr : (grainXf X).execAll g' xs with ⟨o', e', g''⟩
      rw [hr] at i1 i2 i3
      refine ⟨i1.trans s1, ?_, fun k t h => ?_⟩
      · simp only [List.length_cons] at *
        omega
      · rcases i3 k t h with ⟨t', ht'⟩ | hk
        · rcases s3 k t' ht' with h' | rfl
          · exact .inl h'
          · exact .inr (by simp)
        · exact .inr (by simp [hk])
    · simp only [Xf.execAll, hx]
      refine ⟨s1, ?_, fun k t h => ?_⟩
      · simp only [List.length_cons] at *
        omega
      · rcases s3 k t h with h' | rfl
        · exact .inl h'
        · exact .inr (by simp)

private theorem flushGrains_length [LinearOrder K] (X : Xf T I O) (l : List (K × T)) (m : OMap K T)
    (h : ∀ e ∈ l, ∃ t, m.find? e.1 = some t) :
    (flushGrains X l m).next.entries.map (·.1) = m.entries.map (·.1) := by
  have hset : ∀ (k : K) (v : T) (es : List (K × T)), es.Pairwise (fun a b => a.1 < b.1) → k ∈ es.map (·.1) →
      (setSorted k v es).map (·.1) = es.map (·.1) := by
    intro k v es hs hk
    induction es with
    | nil => simp at hk
    | cons e es ih =>
      obtain ⟨k', v'⟩ := e
      simp only [setSorted]
      rw [List.pairwise_cons] at hs
      split
      · rename_i hlt
        simp only [List.map_cons, List.mem_cons] at hk
        rcases hk with rfl | hk
        · exact absurd hlt (lt_irrefl _)
        · obtain ⟨e, he, rfl⟩ := List.mem_map.1 hk
          exact absurd hlt (not_lt.2 (le_of_lt (hs.1 e he)))
      · split
        · rename_i heq
          simp [heq]
        · rename_i hne
          simp only [List.map_cons]
          rw [ih hs.2 (by simpa [hne] using hk)]
  induction l generalizing m with
  | nil => rfl
  | cons e l ih =>
    obtain ⟨k, t⟩ := e
    simp only [flushGrains]
    rcases hf : X.flush t with ⟨o, _ | x, t'⟩
    · simp only
      obtain ⟨t1, ht1⟩ := h (k, t) (by simp)
      have hk : k ∈ m.entries.map (·.1) := List.mem_map.2 ⟨_, m.mem_of_find? _ _ ht1, rfl⟩
      have := ih (m.set k t') (fun e he => by
        by_cases hek : e.1 = k
        · exact ⟨t', by rw [hek]; exact OMap.find?_set_self _ _ _⟩
        · obtain ⟨t2, ht2⟩ := h e (by simp [he])
          exact ⟨t2, by rw [OMap.find?_set_other _ _ _ _ hek]; exact ht2⟩)
      rcases hr : flushGrains X l (m.set k t') with ⟨o', e', m'⟩
      rw [hr] at this
      show m'.entries.map _ = _
      rw [show m'.entries.map (·.1) = (m.set k t').entries.map (·.1) from this]
      exact hset k t' m.entries m.sorted hk
    · simp only
      obtain ⟨t1, ht1⟩ := h (k, t) (by simp)
      exact hset k t' m.entries m.sorted (List.mem_map.2 ⟨_, m.mem_of_find? _ _ ht1, rfl⟩)

/-! ### One stretch -/

/-- What is needed of the transformer `t0` of one series: what it holds of the rows is not archived, it survives, and a
flush brings it back to where it was.  `Good` are the series it can process. -/
structure Restarts (X : Xf T I O) (save : T → M Archive Unit) (load : M Archive T) (t0 : T) (Good : List I → Prop) :
    Prop where
  bytes : ∃ b0, b0 ≠ [] ∧ Writes (save t0) b0 ∧ Reads load b0 t0 ∧ Truncs load b0
  same : ∀ xs, save (X.execAll t0 xs).next = save t0
  runs : ∀ xs, Good xs → ∃ outs, X.runAll t0 xs = ⟨outs, none, t0⟩
  idle : X.flush t0 = ⟨[], none, t0⟩

/-- Between two stretches: every grain is at its beginning. -/
structure Begun [LinearOrder K] [Fits K] (t0 : T) (n : Nat) (g : GrainTransformer K T) : Prop where
  create : g.create = some (.ok t0)
  grains : ∀ k t, g.transformers.find? k = some t → t = t0 ∧ Fits.fits k
  few : g.transformers.entries.length ≤ n

variable [LinearOrder K] [Fits K] {X : Xf T I O} {save : T → M Archive Unit} {load : M Archive T} {t0 : T}
  {Good : List I → Prop} {n : Nat} {g : GrainTransformer K T}

theorem Restarts.exec (R : Restarts X save load t0 Good) (xs : List I) (h : Good xs) :
    (X.execAll t0 xs).err = none := by
  obtain ⟨outs, ho⟩ := R.runs xs h
  unfold Xf.runAll at ho
  rcases hr : X.execAll t0 xs with ⟨o, e, t⟩
  rw [hr] at ho
  rcases e with _ | e
  · rfl
  · simp at ho

/-- The transformer of a grain at the beginning of a stretch. -/
private theorem Begun.transformer (hg : Begun t0 n g) (k : K) : g.transformer k = .ok t0 := by
  unfold GrainTransformer.transformer
  rcases hf : g.transformers.find? k with _ | t
  · rw [hg.create]
  · rw [(hg.grains k t hf).1]

/-- Executing the rows of a stretch. -/
theorem Begun.exec (hg : Begun t0 n g) (R : Restarts X save load t0 Good) (xs : List (K × I))
    (hgood : ∀ k, Good (ofGrain k xs)) (hfit : ∀ x ∈ xs, Fits.fits x.1) :
    let r := (grainXf X).execAll g xs
    r.err = none ∧ (∀ k, ofGrain k r.outs = (X.execAll t0 (ofGrain k xs)).outs) ∧
    r.next.create = some (.ok t0) ∧ r.next.had = g.had ∧ r.next.transformers.entries.length ≤ n + xs.length ∧
    (∀ k t, r.next.transformers.find? k = some t → t = (X.execAll t0 (ofGrain k xs)).next ∧ Fits.fits k) ∧
    (∀ k, r.next.transformers.find? k = none → ofGrain k xs = []) := by
  intro r
  obtain ⟨h1, h2, h3⟩ := C37_execute X xs g
  obtain ⟨k1, k2, k3⟩ := exec_holds X xs g
  have he : r.err = none := h1.2 fun k _ => ⟨t0, hg.transformer k, R.exec _ (hgood k)⟩
  have h2 := h2 he
  refine ⟨he, fun k => ?_, h3.trans hg.create, k1, le_trans k2 (Nat.add_le_add_right hg.few _), fun k t ht => ⟨?_, ?_⟩, fun k hk => ?_⟩
  · by_cases hn : ofGrain k xs = []
    · rw [((h2 k).1 hn).1, hn]; rfl
    · exact ((h2 k).2 t0 hn (hg.transformer k)).1
  · by_cases hn : ofGrain k xs = []
    · have e := ((h2 k).1 hn).2
      rw [hn]
      have hb : g.transformers.find? k = some t := e.symm.trans ht
      exact (hg.grains k t hb).1
    · have e := ((h2 k).2 t0 hn (hg.transformer k)).2
      exact Option.some.inj (ht.symm.trans e)
  · rcases k3 k t ht with ⟨t', ht'⟩ | hk
    · exact (hg.grains k t' ht').2
    · obtain ⟨x, hx, rfl⟩ := List.mem_map.1 hk
      exact hfit x hx
  · by_contra hn
    have e := ((h2 k).2 t0 hn (hg.transformer k)).2
    have e' : some (X.execAll t0 (ofGrain k xs)).next = none := e.symm.trans hk
    cases e'

/-- A stretch that ends with a flush. -/
theorem Begun.run (hg : Begun t0 n g) (R : Restarts X save load t0 Good) (xs : List (K × I))
    (hgood : ∀ k, Good (ofGrain k xs)) (hfit : ∀ x ∈ xs, Fits.fits x.1) :
    ∃ outs g', (grainXf X).runAll g xs = ⟨outs, none, g'⟩ ∧ Begun t0 (n + xs.length) g' ∧
      ∀ k, ofGrain k outs = (X.runAll t0 (ofGrain k xs)).outs := by
  obtain ⟨e1, e2, e3, e4, e5, e6, e7⟩ := hg.exec R xs hgood hfit
  have hrun : ∀ k, ∃ fo, X.flush (X.execAll t0 (ofGrain k xs)).next = ⟨fo, none, t0⟩ ∧
      (X.runAll t0 (ofGrain k xs)).outs = (X.execAll t0 (ofGrain k xs)).outs ++ fo := by
    intro k
    obtain ⟨outs, ho⟩ := R.runs _ (hgood k)
    have he := R.exec _ (hgood k)
    unfold Xf.runAll at ho ⊢
    rcases hr : X.execAll t0 (ofGrain k xs) with ⟨o, e, t⟩
    rw [hr] at ho he
    simp only at he
    subst he
    have ho' : (⟨o ++ (X.flush t).outs, (X.flush t).err, (X.flush t).next⟩ : Run T O) = ⟨outs, none, t0⟩ := ho
    show ∃ fo, X.flush t = ⟨fo, none, t0⟩ ∧ o ++ (X.flush t).outs = o ++ fo
    rcases hf : X.flush t with ⟨fo, fe, ft⟩
    rw [hf] at ho'
    cases ho'
    exact ⟨fo, rfl, rfl⟩
  rcases hA : (grainXf X).execAll g xs with ⟨o, e, g1⟩
  rw [hA] at e1 e2 e3 e4 e5 e6 e7
  simp only at e1 e2 e3 e4 e5 e6 e7
  subst e1
  obtain ⟨f1, f2⟩ := C37_flush X g1
  have fe : ((grainXf X).flush g1).err = none := f1.2 fun k t ht => by
    obtain ⟨fo, hfo, _⟩ := hrun k
    rw [(e6 k t ht).1, hfo]
  have f2 := f2 fe
  have hkeys : ((grainXf X).flush g1).next.transformers.entries.map (·.1) = g1.transformers.entries.map (·.1) :=
    flushGrains_length X g1.transformers.entries g1.transformers
      (fun e he => ⟨e.2, g1.transformers.find?_of_mem e.1 e.2 he⟩)
  have hcreate : ((grainXf X).flush g1).next.create = g1.create := rfl
  rcases hF : (grainXf X).flush g1 with ⟨o2, e', g2⟩
  rw [hF] at fe f2 hkeys hcreate
  simp only at fe f2 hkeys hcreate
  subst fe
  refine ⟨o ++ o2, g2, ?_, ⟨hcreate.trans e3, fun k t ht => ?_, ?_⟩, fun k => ?_⟩
  · unfold Xf.runAll
    rw [hA]
    simp only [hF]
  · rcases hf : g1.transformers.find? k with _ | t1
    · rw [((f2 k).1 hf).2] at ht; cases ht
    · have h3 := ((f2 k).2 t1 hf).2
      obtain ⟨fo, hfo, _⟩ := hrun k
      rw [(e6 k t1 hf).1, hfo] at h3
      rw [h3] at ht
      exact ⟨(Option.some.inj ht).symm, (e6 k t1 hf).2⟩
  · have := congrArg List.length hkeys
    simp only [List.length_map] at this
    omega
  · rw [ofGrain_append, e2 k]
    obtain ⟨fo, hfo, hout⟩ := hrun k
    rcases hf : g1.transformers.find? k with _ | t1
    · rw [((f2 k).1 hf).1, e7 k hf]
      have hi := e7 k hf
      rw [hi] at hfo hout
      have h0 : (X.execAll t0 []).next = t0 := rfl
      rw [h0, R.idle] at hfo
      cases hfo
      rw [hout]
    · rw [((f2 k).2 t1 hf).1, (e6 k t1 hf).1, hfo, hout]

/-! ### Saving and loading -/

private theorem saveLoop_same [Traits K] (c : ArClass) (t0 : c.Obj) (l : List (K × c.Obj))
    (h : ∀ e ∈ l, c.save e.2 = c.save t0) :
    grainSaveLoop c l = grainSaveLoop c (l.map fun e => (e.1, t0)) := by
  induction l with
  | nil => rfl
  | cons e l ih =>
    obtain ⟨k, t⟩ := e
    simp only [grainSaveLoop, List.map_cons]
    rw [h (k, t) (by simp), ih (fun e he => h e (by simp [he]))]

/-- Saving at any time: a loaded transformer has every grain at its beginning. -/
theorem grain_reloads [Traits K] [Codec K] (g : GrainTransformer K T)
    (hb : ∃ b0, b0 ≠ [] ∧ Writes (save t0) b0 ∧ Reads load b0 t0 ∧ Truncs load b0) (hc : g.create = some (.ok t0))
    (hs : ∀ k t, g.transformers.find? k = some t → save t = save t0 ∧ Fits.fits k)
    (hn : g.transformers.entries.length ≤ n) (hn' : n < 2 ^ 64) :
    ∃ (bs : List UInt8) (g' : GrainTransformer K T), Begun t0 n g' ∧ Writes (GrainTransformer.save ⟨T, save, load⟩ g) bs ∧
      ∀ h space base base' pre, Roomy space base (pre ++ bs).length → Roomy space base' (pre ++ bs).length →
        (GrainTransformer.load ⟨T, save, load⟩ base' (.rd h space base (pre ++ bs) pre.length)).1 = .ok g' := by
  obtain ⟨b0, hb0, hw, hr, htru⟩ := hb
  obtain ⟨had, create, m⟩ := g
  simp only at hc hs hn
  subst hc
  let m' : OMap K T := if had then m.mapValues (fun _ => t0) else .empty
  have hval : ∀ k t, m'.find? k = some t → t = t0 ∧ Fits.fits k := by
    intro k t ht
    have hmem := m'.mem_of_find? k t ht
    rcases had with _ | _
    · simp [m', OMap.empty] at hmem
    · have hmem' : (k, t) ∈ m.entries.map fun e => (e.1, t0) := hmem
      obtain ⟨e, he, hke⟩ := List.mem_map.1 hmem'
      cases hke
      exact ⟨rfl, (hs e.1 e.2 (m.find?_of_mem _ _ he)).2⟩
  have hlen : m'.entries.length ≤ n := by
    rcases had with _ | _
    · simp [m', OMap.empty]
    · show (m.entries.map fun e => (e.1, t0)).length ≤ n
      simpa using hn
  have htr : GrainsSurvive (K := K) ⟨T, save, load⟩ m' := ⟨by omega, fun k t ht => by
    obtain ⟨rfl, hf⟩ := hval k t ht
    exact ⟨hf, b0, hw, hr, htru⟩⟩
  obtain ⟨bs, w, l⟩ := C38_one_cycle (⟨T, save, load⟩ : ArClass) had m' htr (by
    rcases had with _ | _
    · exact .inr rfl
    · exact .inl rfl) t0 b0 hw hr
  refine ⟨bs ++ b0, ⟨m'.entries.isEmpty, some (.ok t0), m'⟩, ⟨rfl, hval, hlen⟩, ?_, ?_⟩
  · have e : GrainTransformer.save (⟨T, save, load⟩ : ArClass) (⟨had, some (.ok t0), m⟩ : GrainTransformer K T)
        = GrainTransformer.save (⟨T, save, load⟩ : ArClass) (⟨had, some (.ok t0), m'⟩ : GrainTransformer K T) := by
      rcases had with _ | _
      · rfl
      · have e1 := saveLoop_same (K := K) (⟨T, save, load⟩ : ArClass) t0 m.entries
          (fun e he => (hs e.1 e.2 (m.find?_of_mem _ _ he)).1)
        have e2 : m'.entries = m.entries.map fun e => (e.1, t0) := rfl
        unfold GrainTransformer.save
        simp only [if_true]
        rw [e1, e2, List.length_map]
    rw [e]; exact w
  · intro h space base base' pre h1 h2
    obtain ⟨had', hl, hh⟩ := l h space base base' pre [] (by simpa using h1) (by
      unfold Roomy at h2 ⊢
      simp only [List.length_append, List.length_nil] at h2 ⊢
      omega) (by simpa using hb0)
    simp only [List.append_nil] at hl
    rw [hl]
    have : had' = m'.entries.isEmpty := by
      rw [Bool.eq_iff_iff, hh, List.isEmpty_iff]
    rw [this]

end Feat
