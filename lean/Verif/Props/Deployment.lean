import Verif.Props.Clients
import Verif.Props.CArchives
import Verif.Props.ChainArchive
/-
**C105** From training in one process to answers in another, through the C interface.
-/
namespace Feat.CApi
variable {ι O : Type}

theorem trips_map {c d : ArClass} {t : c.Obj} (f : c.Obj → d.Obj) (hs : d.save (f t) = c.save t)
    (hl : d.load = c.load >>= fun t => pure (f t)) (h : RoundTrips c t) : RoundTrips d (f t) := by
  obtain ⟨bs, h1, h2, h3⟩ := h
  refine ⟨bs, by rw [hs]; exact h1, ?_, ?_⟩
  · rw [hl]; exact Reads.map f h2
  · rw [hl]; exact Truncs.map h2 h3

theorem only_trips (n : Nat) {c : ArClass} {t : c.Obj} (h : RoundTrips c t) :
    RoundTrips (onlyAr n c) (List.replicate n none ++ [some t]) := by
  refine trips_map (c := c) (d := onlyAr n c) (fun t => List.replicate n none ++ [some t]) ?_ rfl h
  simp only [onlyAr]
  rw [List.drop_append_of_le_length (by simp), List.drop_eq_nil_of_le (by simp), List.nil_append]

/-- What `save` writes for `t` is read as `t'`. -/
def Becomes (c : ArClass) (t t' : c.Obj) : Prop := ∃ bs, Writes (c.save t) bs ∧ Reads c.load bs t'

theorem trips_becomes {c : ArClass} {t : c.Obj} (h : RoundTrips c t) : Becomes c t t := by
  obtain ⟨bs, h1, h2, -⟩ := h
  exact ⟨bs, h1, h2⟩

theorem only_becomes (n : Nat) {c : ArClass} {t t' : c.Obj} (h : Becomes c t t') :
    Becomes (onlyAr n c) (List.replicate n none ++ [some t]) (List.replicate n none ++ [some t']) := by
  obtain ⟨bs, h1, h2⟩ := h
  refine ⟨bs, ?_, Reads.map (fun t => List.replicate n none ++ [some t]) h2⟩
  simp only [onlyAr]
  rw [List.drop_append_of_le_length (by simp), List.drop_eq_nil_of_le (by simp), List.nil_append]
  exact h1

/-- **C105** The story of `C105_deployed`, for a transformer that may change when it is saved and loaded: the answers in the second
process are those of what the archive is read as. -/
theorem C105_reread {σ : Nat → Type} {α : Type} {c : ArClass} {X : Xf c.Obj ι ι} {Y : Xf c.Obj ι O}
    {comps : (i : Nat) → Component (σ i) ι α} {n : Nat} {mk : AnnotationMaps α → Except Err c.Obj} {maps : AnnotationMaps α} {t t' : c.Obj}
    {host host' : Endian} {space space' : Nat} {place place' : List UInt8 → Nat}
    {es₀ es₁ es₂ : List (Request ι × Reply O)}
    {w₀ w₁ w₂ w₃ w₄ w₅ : World (List (Elem (CompState α σ) ι c.Obj) × CompState α σ) (List (Option c.Obj))} {l₁ l₂ l₃ : Luck}
    {h k : Nat} {bs : List (List ι)} {bytes : List UInt8}
    (hy : FeaturizerYields X comps n mk bs maps (.ok t))
    -- the first process
    (h₀ : History (pipelineIn c X Y comps n mk maps host space place) es₀ w₀) (hl₁ : l₁.Ok w₀)
    (hc : serve (pipelineIn c X Y comps n mk maps host space place) (.call (.createEstimator true) true) l₁ w₀
      = (.returned true (.handle h) none, w₁))
    (s₁ : Session (pipelineIn c X Y comps n mk maps host space place) w₁ es₁ w₂)
    (hd₁ : ∀ e ∈ es₁, e.1 ≠ .call (.destroyEstimator h) true) (hs : TrainsWith bs (sights h es₁)) (hl₂ : l₂.Ok w₂)
    (ht : serve (pipelineIn c X Y comps n mk maps host space place) (.call (.createTransformer h true) true) l₂ w₂
      = (.returned true (.handle k) none, w₃))
    (s₂ : Session (pipelineIn c X Y comps n mk maps host space place) w₃ es₂ w₄)
    (hd₂ : ∀ e ∈ es₂, e.1 ≠ .call (.destroyTransformer k) true) (hl₃ : l₃.Ok w₄)
    (hsave : serve (pipelineIn c X Y comps n mk maps host space place) (.call (.save k true) true) l₃ w₄
      = (.returned true (.bytes bytes) none, w₅))
    (htrip : Becomes c (alone Y t (questions k es₂)).2 t')
    -- the second process
    {fs₀ fs₁ : List (Request ι × Reply O)}
    {v₀ v₁ v₂ : World (List (Elem (CompState α σ) ι c.Obj) × CompState α σ) (List (Option c.Obj))} {l₄ : Luck} {j : Nat}
    {behind : List UInt8}
    (g₀ : History (pipelineIn c X Y comps n mk maps host' space' place') fs₀ v₀) (hl₄ : l₄.Ok v₀)
    (hroom : Roomy space' (place' (bytes ++ behind)) (bytes ++ behind).length)
    (hload : serve (pipelineIn c X Y comps n mk maps host' space' place') (.call (.loadTransformer (some (bytes ++ behind)) true) true)
      l₄ v₀ = (.returned true (.handle j) none, v₁))
    (s₃ : Session (pipelineIn c X Y comps n mk maps host' space' place') v₁ fs₁ v₂)
    (hd₃ : ∀ e ∈ fs₁, e.1 ≠ .call (.destroyTransformer j) true) :
    answers k es₂ = (alone Y t (questions k es₂)).1 ∧
    answers j fs₁ = (alone Y t' (questions j fs₁)).1 := by
  refine ⟨C104_pipeline hy h₀ hl₁ hc s₁ hd₁ hs hl₂ ht s₂ hd₂, ?_⟩
  obtain ⟨o₃, es, hist₃⟩ := pipeline_made hy h₀ hl₁ hc s₁ hd₁ hs hl₂ ht
  have hist₃ : History (pipelineIn c X Y comps n mk maps host space place) es w₃ := hist₃
  have o₄ : w₄.object k = some (.xf (List.replicate n none ++ [some (alone Y t (questions k es₂)).2])) := by
    have h4 := (C104_transformer hist₃ s₂ k _ o₃ hd₂).2
    have h5 : w₄.object k = some (.xf (alone (onlyXf n Y) (List.replicate n none ++ [some t]) (questions k es₂)).2) := h4
    rw [only_alone] at h5
    exact h5
  obtain ⟨bs', hw, hr⟩ := only_becomes n htrip
  have hb : bytes = bs' := by
    have ho := outcome (s₂.history hist₃) hl₃ (c := .save k true) rfl hsave trivial
    rw [show (Call.save k true : Call ι).handle = k from rfl, o₄] at ho
    have hsv : (pipelineIn c X Y comps n mk maps host space place).save
        (List.replicate n none ++ [some (alone Y t (questions k es₂)).2]) = .ok bs' := save_of (onlyAr n c) host space _ bs' hw
    simp only [direct, onXf, if_true, hsv] at ho
    have := ho.1
    injection this with _ h2 _
    injection h2
  subst hb
  have o₁ : v₁.object j = some (.xf (List.replicate n none ++ [some t'])) := by
    have ho := outcome g₀ hl₄ (c := .loadTransformer (some (bytes ++ behind)) true) rfl hload trivial
    rw [show (Call.loadTransformer (some (bytes ++ behind)) true : Call ι).handle = 0 from rfl] at ho
    simp only [direct] at ho
    by_cases hne : bytes ++ behind = []
    · rw [if_pos (by simp [hne])] at ho
      obtain ⟨i, hi, _⟩ := ho
      cases hi
    · have hld : (pipelineIn c X Y comps n mk maps host' space' place').load (bytes ++ behind)
          = .ok (List.replicate n none ++ [some t']) := by
        have h1 := hr host' space' (place' (bytes ++ behind)) [] behind (by simpa using hroom)
        show apiLoad (onlyAr n c) host' space' place' (bytes ++ behind) = _
        rw [load_at _ _ _ _ _ hne]
        simp only [List.nil_append] at h1 ⊢
        rw [h1]
        rfl
      rw [if_neg (by simp [hne]), hld] at ho
      obtain ⟨i, h1, _, _, h4⟩ := ho
      cases h1
      rw [h4, if_pos rfl]
  have hist' := g₀.step hl₄ hload trivial
  rw [(C104_transformer hist' s₃ j _ o₁ hd₃).1]
  exact congrArg Prod.fst (only_alone n Y _ _)

/-- **C105** A pipeline with one transformer is trained through the C interface of one process, with the standard loop, used, and
saved; the bytes are loaded through the C interface of another process, possibly on a machine of the other byte order, with bytes
of any kind behind them; in both processes other handles are used at the same time, and exceptions may occur there.  Then the
answers in the second process are those that the transformer which the standard C++ training yields gives to the questions of the
second process after those of the first. -/
theorem C105_deployed {σ : Nat → Type} {α : Type} {c : ArClass} {X : Xf c.Obj ι ι} {Y : Xf c.Obj ι O}
    {comps : (i : Nat) → Component (σ i) ι α} {n : Nat} {mk : AnnotationMaps α → Except Err c.Obj} {maps : AnnotationMaps α} {t : c.Obj}
    {host host' : Endian} {space space' : Nat} {place place' : List UInt8 → Nat}
    {es₀ es₁ es₂ : List (Request ι × Reply O)}
    {w₀ w₁ w₂ w₃ w₄ w₅ : World (List (Elem (CompState α σ) ι c.Obj) × CompState α σ) (List (Option c.Obj))} {l₁ l₂ l₃ : Luck}
    {h k : Nat} {bs : List (List ι)} {bytes : List UInt8}
    (hy : FeaturizerYields X comps n mk bs maps (.ok t))
    -- the first process
    (h₀ : History (pipelineIn c X Y comps n mk maps host space place) es₀ w₀) (hl₁ : l₁.Ok w₀)
    (hc : serve (pipelineIn c X Y comps n mk maps host space place) (.call (.createEstimator true) true) l₁ w₀
      = (.returned true (.handle h) none, w₁))
    (s₁ : Session (pipelineIn c X Y comps n mk maps host space place) w₁ es₁ w₂)
    (hd₁ : ∀ e ∈ es₁, e.1 ≠ .call (.destroyEstimator h) true) (hs : TrainsWith bs (sights h es₁)) (hl₂ : l₂.Ok w₂)
    (ht : serve (pipelineIn c X Y comps n mk maps host space place) (.call (.createTransformer h true) true) l₂ w₂
      = (.returned true (.handle k) none, w₃))
    (s₂ : Session (pipelineIn c X Y comps n mk maps host space place) w₃ es₂ w₄)
    (hd₂ : ∀ e ∈ es₂, e.1 ≠ .call (.destroyTransformer k) true) (hl₃ : l₃.Ok w₄)
    (hsave : serve (pipelineIn c X Y comps n mk maps host space place) (.call (.save k true) true) l₃ w₄
      = (.returned true (.bytes bytes) none, w₅))
    (htrip : RoundTrips c (alone Y t (questions k es₂)).2)
    -- the second process
    {fs₀ fs₁ : List (Request ι × Reply O)}
    {v₀ v₁ v₂ : World (List (Elem (CompState α σ) ι c.Obj) × CompState α σ) (List (Option c.Obj))} {l₄ : Luck} {j : Nat}
    {behind : List UInt8}
    (g₀ : History (pipelineIn c X Y comps n mk maps host' space' place') fs₀ v₀) (hl₄ : l₄.Ok v₀)
    (hroom : Roomy space' (place' (bytes ++ behind)) (bytes ++ behind).length)
    (hload : serve (pipelineIn c X Y comps n mk maps host' space' place') (.call (.loadTransformer (some (bytes ++ behind)) true) true)
      l₄ v₀ = (.returned true (.handle j) none, v₁))
    (s₃ : Session (pipelineIn c X Y comps n mk maps host' space' place') v₁ fs₁ v₂)
    (hd₃ : ∀ e ∈ fs₁, e.1 ≠ .call (.destroyTransformer j) true) :
    answers k es₂ = (alone Y t (questions k es₂)).1 ∧
    answers j fs₁ = (alone Y (alone Y t (questions k es₂)).2 (questions j fs₁)).1 :=
  C105_reread hy h₀ hl₁ hc s₁ hd₁ hs hl₂ ht s₂ hd₂ hl₃ hsave (trips_becomes htrip) g₀ hl₄ hroom hload s₃ hd₃

/-- A transformer that is a function does not change. -/
theorem ofFun_alone {T : Type} (f : T → ι → Except Err O) (t : T) (qs : List (Ask ι)) :
    alone (Xf.ofFun f) t qs = (qs.map fun
      | .row x => (f t x).toOption.map fun o => [o]
      | .flush => some [], t) := by
  induction qs with
  | nil => rfl
  | cons q qs ih =>
    cases q with
    | row x =>
      rcases hf : f t x with e | o
      · have hx : Xf.exec (Xf.ofFun f) t x = ⟨[], some e, t⟩ := by simp [Xf.ofFun, hf]
        simp only [alone, Ask.run, hx, ih, List.map_cons, hf]
        rfl
      · have hx : Xf.exec (Xf.ofFun f) t x = ⟨[o], none, t⟩ := by simp [Xf.ofFun, hf]
        simp only [alone, Ask.run, hx, ih, List.map_cons, hf]
        rfl
    | flush =>
      have hx : Xf.flush (Xf.ofFun f) t = ⟨[], none, t⟩ := rfl
      simp only [alone, Ask.run, hx, ih, List.map_cons]

theorem encoder_trips {K : Type} [DecidableEq K] [Traits K] [Fits K] (t : Encoder K)
    (h : RoundTrips (labelEncoder K).ar (t.labels, t.allowMissing)) : RoundTrips (encoderAr K) t := by
  obtain ⟨bs, h1, h2, h3⟩ := h
  have h2 : Reads (labelEncoder K).load bs (t.labels, t.allowMissing) := h2
  exact ⟨bs, h1, Reads.map (fun p : UMap K UInt32 × Bool => (⟨p.1, p.2⟩ : Encoder K)) h2, Truncs.map h2 h3⟩

/-- **C105** (label encoder) A label encoder is trained through the C interface of one process, used, and saved; the bytes are
loaded through the C interface of another process, whatever its byte order and its history.  There, too, `Transform` gives every
training value its position among the different training values in increasing order (from 1 if unknown values are allowed) and
every other value 0, or an error. -/
theorem C105_label_encoder {K : Type} [LinearOrder K] [Traits K] [Fits K] [Codec K] {X : Xf (Encoder K) K K}
    {it : IterOrder K UInt32} {allow : Bool}
    {host host' : Endian} {space space' : Nat} {place place' : List UInt8 → Nat}
    {es₀ es₁ es₂ : List (Request K × Reply UInt32)} {w₀ w₁ w₂ w₃ w₄ w₅ : World _ (List (Option (Encoder K)))} {l₁ l₂ l₃ : Luck}
    {h k : Nat} {bs : List (List K)} {bytes : List UInt8}
    (hne : bs ≠ []) (hb : NoEmptyBatch bs) (hlen : bs.flatten.length + 1 < 2 ^ 32) (hfit : ∀ x ∈ bs.flatten, Fits.fits x)
    -- the first process
    (h₀ : History (labelEncoderIn X it allow host space place) es₀ w₀) (hl₁ : l₁.Ok w₀)
    (hc : serve (labelEncoderIn X it allow host space place) (.call (.createEstimator true) true) l₁ w₀
      = (.returned true (.handle h) none, w₁))
    (s₁ : Session (labelEncoderIn X it allow host space place) w₁ es₁ w₂)
    (hd₁ : ∀ e ∈ es₁, e.1 ≠ .call (.destroyEstimator h) true) (hs : TrainsWith bs (sights h es₁)) (hl₂ : l₂.Ok w₂)
    (ht : serve (labelEncoderIn X it allow host space place) (.call (.createTransformer h true) true) l₂ w₂
      = (.returned true (.handle k) none, w₃))
    (s₂ : Session (labelEncoderIn X it allow host space place) w₃ es₂ w₄)
    (hd₂ : ∀ e ∈ es₂, e.1 ≠ .call (.destroyTransformer k) true) (hl₃ : l₃.Ok w₄)
    (hsave : serve (labelEncoderIn X it allow host space place) (.call (.save k true) true) l₃ w₄
      = (.returned true (.bytes bytes) none, w₅))
    -- the second process
    {fs₀ fs₁ : List (Request K × Reply UInt32)} {v₀ v₁ v₂ : World _ (List (Option (Encoder K)))} {l₄ : Luck} {j : Nat}
    {behind : List UInt8}
    (g₀ : History (labelEncoderIn X it allow host' space' place') fs₀ v₀) (hl₄ : l₄.Ok v₀)
    (hroom : Roomy space' (place' (bytes ++ behind)) (bytes ++ behind).length)
    (hload : serve (labelEncoderIn X it allow host' space' place') (.call (.loadTransformer (some (bytes ++ behind)) true) true)
      l₄ v₀ = (.returned true (.handle j) none, v₁))
    (s₃ : Session (labelEncoderIn X it allow host' space' place') v₁ fs₁ v₂)
    (hd₃ : ∀ e ∈ fs₁, e.1 ≠ .call (.destroyTransformer j) true) :
    ∃ ks : List K, ks.Pairwise (· < ·) ∧ (∀ x, x ∈ ks ↔ x ∈ bs.flatten) ∧
      answers k es₂ = ((questions k es₂).map fun
        | .row x => codeOf ks allow x
        | .flush => some []) ∧
      answers j fs₁ = (questions j fs₁).map fun
        | .row x => codeOf ks allow x
        | .flush => some [] := by
  have htake : bs.flatten.take (2 ^ 64 - 1) = bs.flatten := List.take_of_length_le (by omega)
  obtain ⟨ks, t, k1, k2, k3, k4, k5, k6, k7⟩ := label_encoder_trained X it 0 (2 ^ 64 - 1) (by decide) allow bs hne hb [[]] (by simp)
    rfl rfl (by rw [htake]; exact hlen)
  rw [htake] at k2 k5 k7
  refine ⟨ks, k1, k2, ?_⟩
  have hl : ks.length ≤ bs.flatten.length :=
    (List.subperm_of_subset (k1.imp (fun h => ne_of_lt h)) (fun x hx => (k2 x).1 hx)).length_le
  have hkeys : ∀ e ∈ t.labels.entries, e.1 ∈ bs.flatten := by
    intro e he
    rw [← k7, (t.labels.find?_eq_some e.1 e.2).2 he]
    rfl
  have htrip : RoundTrips (encoderAr K) t := by
    have hf : Fits.fits (t.labels, t.allowMissing) := by
      refine ⟨⟨?_, fun e he => ⟨hfit _ (hkeys e he), trivial⟩⟩, trivial⟩
      have h1 := (List.subperm_of_subset t.labels.nodup (fun x hx => by
        obtain ⟨e, he, rfl⟩ := List.mem_map.1 hx
        exact hkeys e he)).length_le
      rw [List.length_map] at h1
      show t.labels.entries.length < 2 ^ 32
      omega
    have h1 := library_roundTrips (labelEncoder K) (.labelEncoder K) (t.labels, t.allowMissing) (t.labels, t.allowMissing) rfl hf
    exact encoder_trips t h1
  have hcode : ∀ qs : List (Ask K), alone (Xf.ofFun labelEncode) t qs = (qs.map fun
      | .row x => codeOf ks allow x
      | .flush => some [], t) := by
    intro qs
    rw [ofFun_alone]
    congr 1
    apply List.map_congr_left
    rintro (x | _) _
    · simp only
      by_cases hx : x ∈ ks
      · have hi := List.idxOf_lt_length_iff.2 hx
        obtain ⟨c, c1, c2⟩ := k4 _ hi
        rw [List.getElem_idxOf hi] at c1
        have hc : c = UInt32.ofNat (ks.idxOf x + if allow then 1 else 0) := by
          apply UInt32.toNat.inj
          rw [c2, UInt32.toNat_ofNat_of_lt']
          show _ < 2 ^ 32
          split <;> omega
        simp [c1, codeOf, hx, hc, Except.toOption]
      · have := k5 x (fun hh => hx ((k2 x).2 hh))
        cases allow <;> simp [this, codeOf, hx, Except.toOption]
    · rfl
  have hmain := C105_deployed (c := encoderAr K) (Y := Xf.ofFun labelEncode) k3 h₀ hl₁ hc s₁ hd₁ hs hl₂ ht s₂ hd₂ hl₃ hsave
    (Eq.mpr (congrArg (RoundTrips (encoderAr K)) (congrArg Prod.snd (hcode (questions k es₂)))) htrip) g₀ hl₄ hroom hload s₃ hd₃
  have hsnd : (alone (Xf.ofFun labelEncode) t (questions k es₂)).2 = t := congrArg Prod.snd (hcode _)
  have hsecond : ∀ u : Encoder K, u = t → ∀ qs, (alone (Xf.ofFun labelEncode) u qs).1 = (qs.map fun
      | .row x => codeOf ks allow x
      | .flush => some []) := by
    rintro u rfl qs
    rw [hcode]
  exact ⟨hmain.1.trans (hsecond t rfl _), hmain.2.trans (hsecond _ hsnd _)⟩

/-! ### A concrete case -/

deriving instance DecidableEq for Value, Reply, Sight

/-- A process on a machine with 40-bit addresses, where the buffers lie at 4096. -/
private def machine (host : Endian) :=
  labelEncoderIn (K := Str) (Xf.ofFun fun _ x => .ok x) .reverse true host (2 ^ 40) (fun _ => 4096)

private def training : List (Request Str) :=
  [.call (.getState 7 true) true, .call (.fit 7 ⟨[98]⟩ true) true, .call (.getState 7 true) true, .call (.fit 7 ⟨[97]⟩ true) true,
   .call (.onDataCompleted 7) true, .call (.getState 7 true) true, .call (.completeTraining 7) true]

private def one₁ := (serve (machine .little) (.call (.createEstimator true) true) (luck 0) World.start).2
private def one₂ := (serveAll (machine .little) 1 training one₁).2
private def one₃ := (serve (machine .little) (.call (.createTransformer 7 true) true) (luck 8) one₂).2
private def asked₁ : List (Request Str) := [.call (.transform 23 ⟨[98]⟩ true) true, .call (.transform 23 ⟨[99]⟩ true) true]
private def one₄ := (serveAll (machine .little) 9 asked₁ one₃).2
private def one₅ := (serve (machine .little) (.call (.save 23 true) true) (luck 11) one₄).2

/-- Version 1.0, two entries, "a" with 0, "b" with 1, and the flag. -/
private def saved : List UInt8 :=
  [1, 0, 0, 0, 2, 0, 0, 0, 1, 0, 0, 0, 97, 0, 0, 0, 0, 1, 0, 0, 0, 98, 1, 0, 0, 0, 1]

private def two₁ := (serveAll (machine .big) 0 [.call (.createEstimator true) true] World.start).2
private def two₂ := (serve (machine .big) (.call (.loadTransformer (some (saved ++ [5])) true) true) (luck 1) two₁).2
private def asked₂ : List (Request Str) :=
  [.call (.transform 9 ⟨[97]⟩ true) true, .call (.destroyEstimator 7) true, .call (.transform 9 ⟨[98]⟩ true) true,
   .call (.transform 9 ⟨[99]⟩ true) true]

/-- What the handle of the trained transformer stands for. -/
private def enc : Encoder Str := ⟨⟨[(⟨[97]⟩, 0), (⟨[98]⟩, 1)], by decide⟩, true⟩

private def look : Except Err (Nat × List (Option (Encoder Str))) → Option (List (Option (List (Str × UInt32) × Bool)))
  | .ok (_, ts) => some (ts.map fun t => t.map fun t => (t.labels.entries, t.allowMissing))
  | _ => none

private theorem of_look {x : Except Err (Nat × List (Option (Encoder Str)))}
    (h : look x = some [none, none, some (enc.labels.entries, enc.allowMissing)]) : ∃ p, x = .ok (p, [none, none, some enc]) := by
  rcases x with e | ⟨p, ts⟩
  · cases h
  · refine ⟨p, ?_⟩
    simp only [look, Option.some.injEq] at h
    rcases ts with _ | ⟨a, _ | ⟨b, _ | ⟨c, _ | ⟨d, ts⟩⟩⟩⟩ <;> simp at h
    obtain ⟨rfl, rfl, ⟨⟨es, hn⟩, f⟩, rfl, h1, h2⟩ := h
    simp only at h1 h2
    subst h1 h2
    rfl

private theorem saves {σ τ : Type} {F : Featurizer σ ι τ O} {w : World σ τ} {h p : Nat} {t : τ} {bs : List UInt8} (l : Luck)
    (h0 : h ≠ 0) (ht : w.transformer h = .ok (p, t)) (hs : F.save t = .ok bs) :
    (serve F (.call (.save h true) true) l w).1 = .returned true (.bytes bs) none := by
  simp [serve, invoke, body, World.onTransformer, h0, ht, hs]

private theorem machine_save (host : Endian) (t : Encoder Str) :
    (machine host).save [none, none, some t] = apiSave (encoderAr Str) host (2 ^ 40) t := rfl

private theorem pair_of {α β : Type} {x : α × β} {r : α} (h : x.1 = r) : x = (r, x.2) := by
  cases h
  rfl

private theorem serves_save : serve (machine .little) (.call (.save 23 true) true) (luck 11) one₄
    = (.returned true (.bytes saved) none, one₅) := by
  obtain ⟨p, hp⟩ := of_look (x := one₄.transformer 23) (by decide +kernel)
  have h1 : apiSave (encoderAr Str) .little (2 ^ 40) enc = .ok saved := by decide +kernel
  have h2 := saves (O := UInt32) (luck 11) (by decide) hp ((machine_save .little enc).trans h1)
  unfold one₅
  exact pair_of h2

private theorem serves_create : serve (machine .little) (.call (.createEstimator true) true) (luck 0) World.start
    = (.returned true (.handle 7) none, one₁) := by
  have h : (serve (machine .little) (.call (.createEstimator true) true) (luck 0) World.start).1
      = .returned true (.handle 7) none := by decide +kernel
  unfold one₁
  exact pair_of h

private theorem serves_transformer : serve (machine .little) (.call (.createTransformer 7 true) true) (luck 8) one₂
    = (.returned true (.handle 23) none, one₃) := by
  have h : (serve (machine .little) (.call (.createTransformer 7 true) true) (luck 8) one₂).1
      = .returned true (.handle 23) none := by decide +kernel
  unfold one₃
  exact pair_of h

private theorem serves_load : serve (machine .big) (.call (.loadTransformer (some (saved ++ [5])) true) true) (luck 1) two₁
    = (.returned true (.handle 9) none, two₂) := by
  have h : (serve (machine .big) (.call (.loadTransformer (some (saved ++ [5])) true) true) (luck 1) two₁).1
      = .returned true (.handle 9) none := by decide +kernel
  unfold two₂
  exact pair_of h

set_option maxRecDepth 100000 in
/-- The hypotheses of `C105_label_encoder` are met, with machines of different byte order. -/
example : serve (machine .little) (.call (.createEstimator true) true) (luck 0) World.start = (.returned true (.handle 7) none, one₁) ∧
    Session (machine .little) one₁ (training.zip (serveAll (machine .little) 1 training one₁).1) one₂ ∧
    TrainsWith [[⟨[98]⟩], [⟨[97]⟩]] (sights 7 (training.zip (serveAll (machine .little) 1 training one₁).1)) ∧
    (luck 8).Ok one₂ ∧
    serve (machine .little) (.call (.createTransformer 7 true) true) (luck 8) one₂ = (.returned true (.handle 23) none, one₃) ∧
    Session (machine .little) one₃ (asked₁.zip (serveAll (machine .little) 9 asked₁ one₃).1) one₄ ∧ (luck 11).Ok one₄ ∧
    serve (machine .little) (.call (.save 23 true) true) (luck 11) one₄ = (.returned true (.bytes saved) none, one₅) ∧
    (luck 1).Ok two₁ ∧ Roomy (2 ^ 40) 4096 (saved ++ [5]).length ∧
    serve (machine .big) (.call (.loadTransformer (some (saved ++ [5])) true) true) (luck 1) two₁
      = (.returned true (.handle 9) none, two₂) ∧
    Session (machine .big) two₂ (asked₂.zip (serveAll (machine .big) 2 asked₂ two₂).1) (serveAll (machine .big) 2 asked₂ two₂).2 ∧
    answers 9 (asked₂.zip (serveAll (machine .big) 2 asked₂ two₂).1) = [some [1], some [2], some [0]] := by
  refine ⟨serves_create, session_of _ _ _ (by decide +kernel), ?_, luck_ok (by decide +kernel) (by decide +kernel) (by omega), serves_transformer,
    session_of _ _ _ (by decide +kernel), luck_ok (by decide +kernel) (by decide +kernel) (by omega), serves_save,
    luck_ok (by decide +kernel) (by decide +kernel) (by omega), by unfold Roomy; decide, serves_load,
    session_of _ _ _ (by decide +kernel), by decide +kernel⟩
  have : sights 7 (training.zip (serveAll (machine .little) 1 training one₁).1)
      = [.state .training, .fitted [⟨[98]⟩] .continue, .state .training, .fitted [⟨[97]⟩] .continue, .dataCompleted,
         .state .finished] ++ [.completed] := by decide +kernel
  rw [this]
  exact .loop (by decide) (.next (by decide) (by decide) (.last (by decide) (.done (by decide))))

end Feat.CApi
