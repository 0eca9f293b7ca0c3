import Verif.Props.DeployedInference
/-
**C106** for featurizers that are not pipelines, whose transformers may remember what they were asked.
-/
namespace Feat.CApi
variable {σ ι τ O : Type}

/-- A transformer that gives, in every state that `P` holds of, exactly one item or an error to a row, and anything but undefined
behaviour to a flush, and stays in such states. -/
structure Answers (X : Xf τ ι O) (P : τ → Prop) : Prop where
  row : ∀ t, P t → ∀ x, (∃ os e t', e ≠ .ub ∧ X.exec t x = ⟨os, some e, t'⟩ ∧ P t') ∨ ∃ o t', X.exec t x = ⟨[o], none, t'⟩ ∧ P t'
  flush : ∀ t, P t → (∃ os e t', e ≠ .ub ∧ X.flush t = ⟨os, some e, t'⟩ ∧ P t') ∨ ∃ os t', X.flush t = ⟨os, none, t'⟩ ∧ P t'

/-- Such a transformer can be asked any questions. -/
theorem C106_asks {F : Featurizer σ ι τ O} {P : τ → Prop} (hF : Answers F.xf P) {k : Nat} (qs : List (Ask ι)) :
    ∀ {t : τ} {es₀ : List (Request ι × Reply O)} {w₀ : World σ τ}, P t → History F es₀ w₀ → w₀.object k = some (.xf t) →
      (given es₀).length + qs.length + 1 < 2 ^ 64 →
      ∃ es w, Session F w₀ es w ∧ (∀ e ∈ es, e.1 ≠ .call (.destroyTransformer k) true) ∧ questions k es = qs ∧
        (given es).length ≤ qs.length := by
  induction qs with
  | nil => intro t es₀ w₀ _ h₀ hk _; exact ⟨[], w₀, .start, by simp, rfl, by simp [given]⟩
  | cons q qs ih =>
    intro t es₀ w₀ hP h₀ hk hlen
    simp only [List.length_cons] at hlen
    obtain ⟨l, hl, hd⟩ := C106_luck h₀ (by omega)
    obtain ⟨c, t', hq, hn, hcg, hh, hP', hcase⟩ : ∃ (c : Call ι) (t' : τ), askedOf k (.call c true) = some q ∧
        Request.call c true ≠ .call (.destroyTransformer k) true ∧ c.givesOut = true ∧ c.handle = k ∧ P t' ∧
        ((∃ v, direct F (some (.xf t)) c = .succeeds v (some (.xf t')) ∧ ∀ i, v ≠ .handle i) ∨
          ∃ e, e ≠ .ub ∧ direct F (some (.xf t)) c = .fails e (some (.xf t'))) := by
      cases q with
      | row x =>
        rcases hF.row t hP x with ⟨os, e, t', he, hx, hp⟩ | ⟨o, t', hx, hp⟩
        · exact ⟨.transform k x true, t', by simp [askedOf], nofun, rfl, rfl, hp, .inr ⟨e, he, by simp [direct, onXf, executeOne, hx]⟩⟩
        · exact ⟨.transform k x true, t', by simp [askedOf], nofun, rfl, rfl, hp, .inl ⟨.item o, by simp [direct, onXf, executeOne, hx], nofun⟩⟩
      | flush =>
        rcases hF.flush t hP with ⟨os, e, t', he, hx, hp⟩ | ⟨os, t', hx, hp⟩
        · exact ⟨.flush k true, t', by simp [askedOf], nofun, rfl, rfl, hp, .inr ⟨e, he, by simp [direct, onXf, flushAll, hx]⟩⟩
        · exact ⟨.flush k true, t', by simp [askedOf], nofun, rfl, rfl, hp, .inl ⟨.items os, by simp [direct, onXf, flushAll, hx], nofun⟩⟩
    have hcall := C60_call h₀ hl hd c hcg
    rw [hh, hk] at hcall
    rcases hs : serve F (.call c true) l w₀ with ⟨rep, w₁⟩
    rw [hs] at hcall
    obtain ⟨hb, ho, hg⟩ : rep.cameBack ∧ w₁.object k = some (.xf t') ∧ (given [((Request.call c true : Request ι), rep)]).length ≤ 1 := by
      rcases hcase with ⟨v, hv, hnv⟩ | ⟨e, he, hv⟩
      · rw [hv] at hcall
        obtain ⟨rfl, hobj⟩ := hcall
        refine ⟨trivial, by rw [hobj, if_pos rfl], ?_⟩
        simp only [given]
        exact (List.length_filterMap_le _ _).trans (by simp)
      · rw [hv] at hcall
        have : ∃ i, rep = .returned false .nothing (some i) ∧ i ≠ 0 ∧ w₀.object i = none ∧
            ∀ j, w₁.object j = if j = i then some (.message e) else if j = k then some (.xf t') else w₀.object j := by
          cases e <;> first | exact hcall | exact absurd rfl he
        obtain ⟨i, rfl, -, hi, hobj⟩ := this
        refine ⟨trivial, ?_, ?_⟩
        · rw [hobj, if_neg (fun hx => by rw [← hx, hk] at hi; cases hi), if_pos rfl]
        · simp only [given]
          exact (List.length_filterMap_le _ _).trans (by simp)
    obtain ⟨es, w, s, h1, h2, h4⟩ := ih hP' (h₀.step hl hs hb) ho (by
      rw [given_append, List.length_append]
      omega)
    refine ⟨[(.call c true, rep)] ++ es, w, session_append (Session.step .start hl hs hb) s, ?_, ?_, ?_⟩
    · intro e he
      rcases List.mem_append.1 he with he | he
      · rw [List.mem_singleton.1 he]; exact hn
      · exact h1 e he
    · simp only [questions, List.filterMap_append] at h2 ⊢
      rw [h2]
      simp [hq]
    · rw [given_append, List.length_append, List.length_cons]
      omega

/-- **C106** Any featurizer that C++ can train can be deployed, if its transformers answer, and can be saved after any questions, and
what is read answers, too: there is a story as in C105, with any questions in both processes and any bytes behind the archive, if
its buffer is not empty and lies in the address space. -/
theorem C106_any {c : ArClass} {F : Featurizer σ ι c.Obj O} {s : σ} {t : c.Obj} {bs : List (List ι)} {N : Nat} {e : Est σ}
    {P P' : c.Obj → Prop} {host host' : Endian} {space space' : Nat} {place place' : List UInt8 → Nat} (hnew : F.new = .ok s)
    (hy : trainAndCreate F.hooks bs N (Est.new s) = some (.ok t, e))
    (hP : P t) (hA : Answers F.xf P) (hA' : Answers F.xf P') (behind : List UInt8) (qs₁ qs₂ : List (Ask ι))
    (hsave : ∃ t' bytes, Writes (c.save (alone F.xf t qs₁).2) bytes ∧ Reads c.load bytes t' ∧ P' t' ∧ bytes ++ behind ≠ [] ∧
      Roomy space' (place' (bytes ++ behind)) (bytes ++ behind).length)
    (h₁ : qs₁.length < 2 ^ 63) (h₂ : qs₂.length < 2 ^ 63) :
    ∃ as₁ as₂, Deployment (F.archiving c host space place) (F.archiving c host' space' place')
      (fun b => Roomy space' (place' b) b.length) bs qs₁ as₁ qs₂ as₂ := by
  obtain ⟨t', bytes, hw, hr, hP', hne, hroom⟩ := hsave
  obtain ⟨l₁, h, w₁, es₁, w₂, l₂, k, w₃, hl₁, hc, s₁, hd₁, hs, hl₂, ht, hk, hg⟩ :=
    C106_trains (F := F.archiving c host space place) (s := s) (bs := bs) (n := N) (t := t) (ez := e) hnew hy .start (by simp [given])
  have hist₁ := History.step .start hl₁ hc trivial
  have hist₃ := (s₁.history hist₁).step hl₂ ht trivial
  obtain ⟨es₂, w₄, s₂, hd₂, hq₂, hg₂⟩ := C106_asks (F := F.archiving c host space place) hA qs₁ hP hist₃ hk (by
    rw [given_append, given_append, hg]
    simp [given, Reply.given]
    omega)
  have hk₄ : w₄.object k = some (.xf (alone F.xf t qs₁).2) := by
    have h4 := (C104_transformer hist₃ s₂ k t hk hd₂).2
    rw [hq₂] at h4
    exact h4
  obtain ⟨l₃, hl₃, hdel₃⟩ := C106_luck (s₂.history hist₃) (by
    rw [given_append, given_append, given_append, hg]
    simp [given, Reply.given] at hg₂ ⊢
    omega)
  obtain ⟨w₅, hsv⟩ : ∃ w', serve (F.archiving c host space place) (.call (.save k true) true) l₃ w₄
      = (.returned true (.bytes bytes) none, w') := by
    have hcall := C60_call (s₂.history hist₃) hl₃ hdel₃ (.save k true) rfl
    rw [show (Call.save k true : Call ι).handle = k from rfl, hk₄] at hcall
    have hsv : (F.archiving c host space place).save (alone F.xf t qs₁).2 = .ok bytes := save_of c host space _ bytes hw
    simp only [direct, onXf, if_true, hsv] at hcall
    rcases hs : serve (F.archiving c host space place) (.call (.save k true) true) l₃ w₄ with ⟨rep, w'⟩
    rw [hs] at hcall
    obtain ⟨rfl, -⟩ := hcall
    exact ⟨w', rfl⟩
  obtain ⟨l₄, hl₄, hdel₄⟩ := C106_luck (F := F.archiving c host' space' place') .start (by simp [given])
  obtain ⟨j, v₁, hld, hj⟩ : ∃ j v', serve (F.archiving c host' space' place') (.call (.loadTransformer (some (bytes ++ behind)) true) true) l₄
      World.start = (.returned true (.handle j) none, v') ∧ v'.object j = some (.xf t') := by
    have hcall := C60_call (F := F.archiving c host' space' place') .start hl₄ hdel₄ (.loadTransformer (some (bytes ++ behind)) true) rfl
    rw [show (Call.loadTransformer (some (bytes ++ behind)) true : Call ι).handle = 0 from rfl] at hcall
    have hld : (F.archiving c host' space' place').load (bytes ++ behind) = .ok t' := by
      have h1 := hr host' space' (place' (bytes ++ behind)) [] behind (by simpa using hroom)
      show apiLoad c host' space' place' (bytes ++ behind) = _
      rw [load_at _ _ _ _ _ hne]
      simp only [List.nil_append] at h1 ⊢
      rw [h1]
    simp only [direct] at hcall
    rw [if_neg (by simp [hne]), hld] at hcall
    rcases hs : serve (F.archiving c host' space' place') (.call (.loadTransformer (some (bytes ++ behind)) true) true) l₄ World.start
      with ⟨rep, v'⟩
    rw [hs] at hcall
    obtain ⟨j, rfl, -, -, h4⟩ := hcall
    exact ⟨j, v', rfl, by rw [h4, if_pos rfl]⟩
  have hist' := History.step .start hl₄ hld trivial
  obtain ⟨fs₁, v₂, s₃, hd₃, hq₃, -⟩ := C106_asks (F := F.archiving c host' space' place') hA' qs₂ hP' hist' hj (by
    simp [given, Reply.given]
    omega)
  refine ⟨answers k es₂, answers j fs₁, ?_⟩
  rw [← hq₂, ← hq₃]
  exact .mk .start hl₁ hc s₁ hd₁ hs hl₂ ht s₂ hd₂ hl₃ hsv .start hl₄ hroom hld s₃ hd₃

/-! ### Featurizers without training -/

theorem forward_answers {A : Type} : Answers (forwardFillXf (A := A)) fun t => t.default = none := by
  constructor
  · intro t ht x
    rcases t with ⟨d, l⟩
    rcases x with _ | v
    · rcases l with _ | v
      · exact .inl ⟨[], .runtimeError, ⟨d, none⟩, nofun, rfl, ht⟩
      · exact .inr ⟨v, ⟨d, some v⟩, rfl, ht⟩
    · exact .inr ⟨v, ⟨d, some v⟩, rfl, ht⟩
  · intro t ht
    exact .inr ⟨[], t, rfl, ht⟩

theorem function_answers {T : Type} {f : T → ι → Except Err O} {t₀ : T} (hf : ∀ x, f t₀ x ≠ .error .ub) :
    Answers (Xf.ofFun f) (· = t₀) := by
  constructor
  · rintro t rfl x
    have hfx := hf x
    rcases hfe : f t x with e | o
    · rw [hfe] at hfx
      exact .inl ⟨[], e, t, fun hx => hfx (by rw [hx]), by simp [Xf.ofFun, hfe], rfl⟩
    · exact .inr ⟨o, t, by simp [Xf.ofFun, hfe], rfl⟩
  · rintro t rfl
    exact .inr ⟨[], t, rfl, rfl⟩

/-- **C106** Any featurizer without training whose transformers are functions of the row and survive the archive. -/
theorem C106_inference_function {c : ArClass} {f : c.Obj → ι → Except Err O} {t : c.Obj} (bs : List (List ι)) {host host' : Endian}
    {space space' : Nat} {place place' : List UInt8 → Nat} (hf : ∀ x, f t x ≠ .error .ub) (htrip : RoundTrips c t) (behind : List UInt8)
    (hroom : ∀ bytes, Writes (c.save t) bytes → bytes ++ behind ≠ [] ∧ Roomy space' (place' (bytes ++ behind)) (bytes ++ behind).length)
    (qs₁ qs₂ : List (Ask ι)) (h₁ : qs₁.length < 2 ^ 63) (h₂ : qs₂.length < 2 ^ 63) :
    ∃ as₁ as₂, Deployment (inferenceIn c (Xf.ofFun f) (.ok t) host space place) (inferenceIn c (Xf.ofFun f) (.ok t) host' space' place')
      (fun b => Roomy space' (place' b) b.length) bs qs₁ as₁ qs₂ as₂ := by
  obtain ⟨e, he⟩ := inference_yields bs (.ok t) 0
  obtain ⟨bytes, hw, hr, -⟩ := htrip
  have hsnd : (alone (Xf.ofFun f) t qs₁).2 = t := congrArg Prod.snd (ofFun_alone f t qs₁)
  exact C106_any (F := inferenceIn c (Xf.ofFun f) (.ok t) host space place) (P := (· = t)) (P' := (· = t)) rfl he rfl
    (function_answers hf) (function_answers hf) behind qs₁ qs₂
    ⟨t, bytes, by rw [show (inferenceIn c (Xf.ofFun f) (.ok t) host space place).xf = Xf.ofFun f from rfl, hsnd]; exact hw, hr, rfl,
      (hroom _ hw).1, (hroom _ hw).2⟩ h₁ h₂

/-- **C106** (forward fill imputer) -/
theorem C106_forward_fill {A : Type} [Traits A] [Fits A] [Codec A] (bs : List (List (Option A))) {host host' : Endian} {space space' : Nat}
    {place place' : List UInt8 → Nat} (behind : List UInt8)
    (hroom : ∀ bytes, Writes ((forwardFillAr A).save (ForwardFill.new none)) bytes → bytes ++ behind ≠ [] ∧
      Roomy space' (place' (bytes ++ behind)) (bytes ++ behind).length)
    (qs₁ qs₂ : List (Ask (Option A))) (h₁ : qs₁.length < 2 ^ 63) (h₂ : qs₂.length < 2 ^ 63) :
    ∃ as₁ as₂, Deployment (forwardFillIn A host space place) (forwardFillIn A host' space' place')
      (fun b => Roomy space' (place' b) b.length) bs qs₁ as₁ qs₂ as₂ := by
  obtain ⟨e, he⟩ := inference_yields bs (.ok (ForwardFill.new (none : Option A))) 0
  obtain ⟨l, hl⟩ := forward_keeps (ForwardFill.new (none : Option A)) qs₁
  obtain ⟨bytes, hw, hr⟩ := forward_becomes (A := A) l
  have hl : (alone (forwardFillXf (A := A)) (ForwardFill.new none) qs₁).2 = ⟨none, l⟩ := hl
  have hroom := hroom bytes hw
  exact C106_any (F := forwardFillIn A host space place) (P := fun t : ForwardFill A => t.default = none)
    (P' := fun t : ForwardFill A => t.default = none) rfl he rfl
    forward_answers forward_answers behind qs₁ qs₂
    ⟨ForwardFill.new none, bytes, by
      rw [show (alone (forwardFillIn A host space place).xf (ForwardFill.new none) qs₁).2 = (⟨none, l⟩ : ForwardFill A) from hl]
      exact hw, hr, rfl, hroom.1, hroom.2⟩ h₁ h₂

/-- **C106** (null indicators) -/
theorem C106_null_indicators {A : Type} (bs : List (List (Option A))) {host host' : Endian} {space space' : Nat}
    {place place' : List UInt8 → Nat} (behind : List UInt8)
    (hroom : ∀ bytes, Writes (inferenceOnly.ar.save ()) bytes → bytes ++ behind ≠ [] ∧
      Roomy space' (place' (bytes ++ behind)) (bytes ++ behind).length)
    (qs₁ qs₂ : List (Ask (Option A))) (h₁ : qs₁.length < 2 ^ 63) (h₂ : qs₂.length < 2 ^ 63) :
    (∃ as₁ as₂, Deployment (missingDummiesIn A host space place) (missingDummiesIn A host' space' place')
      (fun b => Roomy space' (place' b) b.length) bs qs₁ as₁ qs₂ as₂) ∧
    (∃ as₁ as₂, Deployment (imputationMarkerIn A host space place) (imputationMarkerIn A host' space' place')
      (fun b => Roomy space' (place' b) b.length) bs qs₁ as₁ qs₂ as₂) := by
  have htrip : RoundTrips inferenceOnly.ar () := library_roundTrips inferenceOnly .inferenceOnly () () rfl trivial
  exact ⟨C106_inference_function (c := inferenceOnly.ar) (O := Int) (t := ())
      (f := fun (_ : Unit) (x : Option A) => .ok (if x.isNone then 1 else 0)) bs (fun _ => nofun) htrip behind hroom qs₁ qs₂ h₁ h₂,
    C106_inference_function (c := inferenceOnly.ar) (O := Bool) (t := ())
      (f := fun (_ : Unit) (x : Option A) => .ok x.isNone) bs (fun _ => nofun) htrip behind hroom qs₁ qs₂ h₁ h₂⟩

/-- **C106** (hash encoder; partial: values shorter than 2^31 bytes, little-endian machines) -/
theorem C106_hash_one_hot_partial {bytes : ι → List UInt8} {seed numCols : UInt32} (h0 : numCols ≠ 0) (hb : ∀ x, (bytes x).length < 2 ^ 31)
    (bs : List (List ι)) {space space' : Nat} {place place' : List UInt8 → Nat} (behind : List UInt8)
    (hroom : ∀ b, Writes (hashOneHotAr.save ⟨seed, numCols⟩) b → b ++ behind ≠ [] ∧ Roomy space' (place' (b ++ behind)) (b ++ behind).length)
    (qs₁ qs₂ : List (Ask ι)) (h₁ : qs₁.length < 2 ^ 63) (h₂ : qs₂.length < 2 ^ 63) :
    ∃ as₁ as₂, Deployment (hashOneHotIn bytes seed numCols .little space place) (hashOneHotIn bytes seed numCols .little space' place')
      (fun b => Roomy space' (place' b) b.length) bs qs₁ as₁ qs₂ as₂ := by
  obtain ⟨hnew, hrun⟩ := (C47_hash_partial seed numCols).2 h0
  have hmade : (hashOneHotIn bytes seed numCols) = fun host space place =>
      inferenceIn (ι := ι) (O := SingleValue UInt8) hashOneHotAr (Xf.ofFun fun (t : HashOneHot) x => t.exec (bytes x))
        (.ok (⟨seed, numCols⟩ : HashOneHot)) host space place := by
    funext host space place
    exact congrArg (fun m => inferenceIn (ι := ι) (O := SingleValue UInt8) hashOneHotAr
      (Xf.ofFun fun (t : HashOneHot) x => t.exec (bytes x)) m host space place) hnew
  rw [hmade]
  refine C106_inference_function (c := hashOneHotAr) (O := SingleValue UInt8) (t := (⟨seed, numCols⟩ : HashOneHot))
    (f := fun (t : HashOneHot) x => t.exec (bytes x)) bs (fun x => ?_) (hash_trips hnew) behind hroom qs₁ qs₂ h₁ h₂
  obtain ⟨v, h1, -⟩ := hrun (bytes x) (hb x)
  intro hx
  have hx : HashOneHot.exec ⟨seed, numCols⟩ (bytes x) = .error .ub := hx
  rw [h1] at hx
  cases hx

/-- There is a deployed forward fill imputer: 5 is what the first process fills with; the second one, of the other byte order, starts
with an error for its null and fills with its 9 then. -/
example : ∃ as₁ as₂, Deployment (forwardFillIn UInt8 .little (2 ^ 64) fun _ => 4096) (forwardFillIn UInt8 .big (2 ^ 64) fun _ => 4096)
      (fun b => Roomy (2 ^ 64) 4096 b.length) [[some 1]] [.row (some 5), .row none] as₁ [.row none, .flush, .row (some 9), .row none] as₂ ∧
    as₁[1]? = some (some [5]) ∧ as₂[0]? = some none ∧ as₂[1]? = some (some []) ∧ as₂[3]? = some (some [9]) := by
  obtain ⟨as₁, as₂, d⟩ := C106_forward_fill (A := UInt8) [[some 1]] (host := .little) (host' := .big) (space := 2 ^ 64) (space' := 2 ^ 64)
    (place := fun _ => 4096) (place' := fun _ => 4096) [7] (by
      intro b hb
      have h1 := save_of (forwardFillAr UInt8) .little 0 (ForwardFill.new none) b hb
      have h2 : apiSave (forwardFillAr UInt8) .little 0 (ForwardFill.new none) = .ok [1, 0, 0, 0, 0] := by rfl
      have h3 : b = [1, 0, 0, 0, 0] := Except.ok.inj (h1.symm.trans h2)
      subst h3
      exact ⟨by simp, by unfold Roomy; simp⟩)
    [.row (some 5), .row none] [.row none, .flush, .row (some 9), .row none] (by simp) (by simp)
  obtain ⟨⟨-, h1⟩, ⟨-, h2⟩⟩ := C105_forward_fill d
  exact ⟨as₁, as₂, d, h1 1 _ rfl, h2 0 _ rfl, h2 1 _ rfl, h2 3 _ rfl⟩

end Feat.CApi
