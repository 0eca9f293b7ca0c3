import Verif.Model.CInference
import Verif.Props.DeployedMinMax
import Verif.Props.Fills
import Verif.Props.Encoders
/-
**C105**, **C106** for featurizers that are not pipelines, in particular those without training.
-/
namespace Feat.CApi
variable {σ ι O : Type}

/-- **C105** The story of `C105_deployed` for any featurizer whose standard training yields `t`: the answers in the first process are
those of `t` alone, and those in the second process are those of what the archive of `t`, after its answers, is read as. -/
theorem C105_any {c : ArClass} {F : Featurizer σ ι c.Obj O} {s : σ} {t t' : c.Obj} {bs : List (List ι)}
    {host host' : Endian} {space space' : Nat} {place place' : List UInt8 → Nat}
    {qs₁ qs₂ : List (Ask ι)} {as₁ as₂ : List (Option (List O))} (hnew : F.new = .ok s)
    (hy : ∃ N, ∀ fuel, N ≤ fuel → ∃ e, trainAndCreate F.hooks bs fuel (Est.new s) = some (.ok t, e))
    (htrip : Becomes c (alone F.xf t qs₁).2 t')
    (d : Deployment (F.archiving c host space place) (F.archiving c host' space' place')
      (fun b => Roomy space' (place' b) b.length) bs qs₁ as₁ qs₂ as₂) :
    as₁ = (alone F.xf t qs₁).1 ∧ as₂ = (alone F.xf t' qs₂).1 := by
  obtain ⟨h₀, hl₁, hc, s₁, hd₁, hs, hl₂, ht, s₂, hd₂, hl₃, hsave, g₀, hl₄, hroom, hload, s₃, hd₃⟩ := d
  rename_i es₂ _ _ _ _ _ _ _ _ _ v₁ _ _ _ _ _ _ k j bytes behind
  obtain ⟨s', m, e, t₀, h1, h2, o₃, es, hist₃⟩ := standard_made h₀ hl₁ hc s₁ hd₁ hs hl₂ ht
  obtain ⟨N, hN⟩ := hy
  obtain ⟨e', he'⟩ := hN (N + m) (by omega)
  have h2' := trainAndCreate_more _ _ _ (N + m) _ _ h2 (by omega)
  have hs' : s' = s := Except.ok.inj (h1.symm.trans hnew)
  subst hs'
  have h4 : some (Except.ok t, e') = some (Except.ok t₀, e) := he'.symm.trans h2'
  have h5 : t = t₀ := Except.ok.inj (Prod.mk.inj (Option.some.inj h4)).1
  subst h5
  obtain ⟨ha, o₄⟩ := C104_transformer hist₃ s₂ k t o₃ hd₂
  refine ⟨ha, ?_⟩
  obtain ⟨bs', hw, hr⟩ := htrip
  have hb : bytes = bs' := by
    have ho := outcome (s₂.history hist₃) hl₃ (c := .save k true) rfl hsave trivial
    rw [show (Call.save k true : Call ι).handle = k from rfl, o₄] at ho
    have hsv : (F.archiving c host space place).save (alone F.xf t (questions k es₂)).2 = .ok bs' := save_of c host space _ bs' hw
    simp only [direct, onXf, if_true, show (F.archiving c host space place).xf = F.xf from rfl, hsv] at ho
    have := ho.1
    injection this with _ h2 _
    injection h2
  subst hb
  have o₁ : v₁.object j = some (.xf t') := by
    have ho := outcome g₀ hl₄ (c := .loadTransformer (some (bytes ++ behind)) true) rfl hload trivial
    rw [show (Call.loadTransformer (some (bytes ++ behind)) true : Call ι).handle = 0 from rfl] at ho
    simp only [direct] at ho
    by_cases hne : bytes ++ behind = []
    · rw [if_pos (by simp [hne])] at ho
      obtain ⟨i, hi, _⟩ := ho
      cases hi
    · have hld : (F.archiving c host' space' place').load (bytes ++ behind) = .ok t' := by
        have h1 := hr host' space' (place' (bytes ++ behind)) [] behind (by simpa using hroom)
        show apiLoad c host' space' place' (bytes ++ behind) = _
        rw [load_at _ _ _ _ _ hne]
        simp only [List.nil_append] at h1 ⊢
        rw [h1]
      rw [if_neg (by simp [hne]), hld] at ho
      obtain ⟨i, h1, _, _, h4⟩ := ho
      cases h1
      rw [h4, if_pos rfl]
  exact (C104_transformer (g₀.step hl₄ hload trivial) s₃ j t' o₁ hd₃).1

/-- Without training. -/
theorem inference_yields {T : Type} (bs : List (List ι)) (made : Except Err T) (fuel : Nat) :
    ∃ e, trainAndCreate (ι := ι) (inferenceHooks made) bs (fuel + 1) (Est.new ()) = some (made, e) := by
  have h : ∀ l : List (List ι), trainLoop (inferenceHooks made) bs (fuel + 1) l ⟨.finished, false, ()⟩ = some (.ok (), ⟨.finished, false, ()⟩) := by
    intro l
    simp [trainLoop.eq_def]
  rcases made with x | t <;> by_cases hb : bs.isEmpty = true <;>
    simp [trainAndCreate, Est.new, Est.beginTraining, inferenceHooks, hb, Est.completeTraining, Est.createTransformer, Except.map] <;>
    (have h' := h bs; simp only [inferenceHooks, Except.map] at h'; rw [h']; exact ⟨_, rfl⟩)

/-- **C105** A featurizer without training. -/
theorem C105_inference {c : ArClass} {Y : Xf c.Obj ι O} {t t' : c.Obj} {bs : List (List ι)}
    {host host' : Endian} {space space' : Nat} {place place' : List UInt8 → Nat}
    {qs₁ qs₂ : List (Ask ι)} {as₁ as₂ : List (Option (List O))} (htrip : Becomes c (alone Y t qs₁).2 t')
    (d : Deployment (inferenceIn c Y (.ok t) host space place) (inferenceIn c Y (.ok t) host' space' place')
      (fun b => Roomy space' (place' b) b.length) bs qs₁ as₁ qs₂ as₂) :
    as₁ = (alone Y t qs₁).1 ∧ as₂ = (alone Y t' qs₂).1 :=
  C105_any (F := inferenceIn c Y (.ok t) host space place) rfl
    ⟨1, fun fuel hf => by
      obtain ⟨m, rfl⟩ : ∃ m, fuel = m + 1 := ⟨fuel - 1, by omega⟩
      exact inference_yields bs (.ok t) m⟩ htrip d

/-! ### Null indicators -/

/-- A featurizer without training whose transformers are functions of the row. -/
theorem C105_inference_function {c : ArClass} {f : c.Obj → ι → Except Err O} {t : c.Obj} {bs : List (List ι)}
    {host host' : Endian} {space space' : Nat} {place place' : List UInt8 → Nat}
    {qs₁ qs₂ : List (Ask ι)} {as₁ as₂ : List (Option (List O))} (htrip : RoundTrips c t)
    (d : Deployment (inferenceIn c (Xf.ofFun f) (.ok t) host space place) (inferenceIn c (Xf.ofFun f) (.ok t) host' space' place')
      (fun b => Roomy space' (place' b) b.length) bs qs₁ as₁ qs₂ as₂) :
    as₁ = repliesOf (fun x => (f t x).toOption.map fun o => [o]) qs₁ ∧
    as₂ = repliesOf (fun x => (f t x).toOption.map fun o => [o]) qs₂ := by
  have hsnd : (alone (Xf.ofFun f) t qs₁).2 = t := congrArg Prod.snd (ofFun_alone f t qs₁)
  obtain ⟨h1, h2⟩ := C105_inference (t' := t) (by rw [hsnd]; exact trips_becomes htrip) d
  exact ⟨h1.trans (congrArg Prod.fst (ofFun_alone f t qs₁)), h2.trans (congrArg Prod.fst (ofFun_alone f t qs₂))⟩

/-- **C105** The null indicators, in both processes and on machines of either byte order: 1 for a null and 0 for a value
(`int8_t`), and true for a null and false for a value (`bool`). -/
theorem C105_null_indicators {A : Type} {bs : List (List (Option A))} {host host' : Endian} {space space' : Nat}
    {place place' : List UInt8 → Nat} {qs₁ qs₂ : List (Ask (Option A))} :
    (∀ {as₁ as₂ : List (Option (List Int))}, Deployment (missingDummiesIn A host space place) (missingDummiesIn A host' space' place')
        (fun b => Roomy space' (place' b) b.length) bs qs₁ as₁ qs₂ as₂ →
      as₁ = repliesOf (fun x => some [match x with | none => 1 | some _ => 0]) qs₁ ∧
      as₂ = repliesOf (fun x => some [match x with | none => 1 | some _ => 0]) qs₂) ∧
    (∀ {as₁ as₂ : List (Option (List Bool))}, Deployment (imputationMarkerIn A host space place) (imputationMarkerIn A host' space' place')
        (fun b => Roomy space' (place' b) b.length) bs qs₁ as₁ qs₂ as₂ →
      as₁ = repliesOf (fun x => some [match x with | none => true | some _ => false]) qs₁ ∧
      as₂ = repliesOf (fun x => some [match x with | none => true | some _ => false]) qs₂) := by
  have htrip : RoundTrips inferenceOnly.ar () := library_roundTrips inferenceOnly .inferenceOnly () () rfl trivial
  have e1 : (fun x : Option A => ((.ok (if x.isNone then 1 else 0) : Except Err Int)).toOption.map fun o => [o])
      = fun x => some [match x with | none => 1 | some _ => 0] := by
    funext x; cases x <;> rfl
  have e2 : (fun x : Option A => ((.ok x.isNone : Except Err Bool)).toOption.map fun o => [o])
      = fun x => some [match x with | none => true | some _ => false] := by
    funext x; cases x <;> rfl
  refine ⟨fun d => ?_, fun d => ?_⟩
  · have h := C105_inference_function (c := inferenceOnly.ar) (O := Int) (t := ())
      (f := fun (_ : Unit) (x : Option A) => .ok (if x.isNone then 1 else 0)) htrip d
    rw [e1] at h; exact h
  · have h := C105_inference_function (c := inferenceOnly.ar) (O := Bool) (t := ())
      (f := fun (_ : Unit) (x : Option A) => .ok x.isNone) htrip d
    rw [e2] at h; exact h

/-! ### Hash encoder -/

theorem hash_trips {seed numCols : UInt32} {t : HashOneHot} (h : HashOneHot.new seed numCols = .ok t) : RoundTrips hashOneHotAr t := by
  by_cases h0 : numCols = 0
  · subst h0; cases h
  · have ht := ((C47_hash_partial seed numCols).2 h0).1
    rw [ht] at h
    cases h
    have hp : ¬ numCols.toNat ≤ 0 := fun hx => h0 (UInt32.toNat_inj.1 (by simpa using hx))
    exact trips_map (c := hashOneHot.ar) (d := hashOneHotAr) (t := (seed, numCols)) (fun (p : UInt32 × UInt32) => (⟨p.1, p.2⟩ : HashOneHot)) rfl rfl
      (library_roundTrips hashOneHot .hashOneHot (seed, numCols) (seed, numCols) (if_neg hp) ⟨trivial, trivial⟩)

/-- **C105** (hash encoder, with C47; partial: values shorter than 2^31 bytes, little-endian machines) In both processes every value
whose bytes are `b` gets one 1, in the column `column b`, which is below the number of columns and the same in both processes. -/
theorem C105_hash_one_hot_partial {bytes : ι → List UInt8} {seed numCols : UInt32} (h0 : numCols ≠ 0) (hb : ∀ x, (bytes x).length < 2 ^ 31) :
    ∃ column : List UInt8 → UInt64, (∀ x, (column (bytes x)).toNat < numCols.toNat) ∧
      ∀ {bs : List (List ι)} {space space' : Nat} {place place' : List UInt8 → Nat} {qs₁ qs₂ : List (Ask ι)}
        {as₁ as₂ : List (Option (List (SingleValue UInt8)))},
        Deployment (hashOneHotIn bytes seed numCols .little space place) (hashOneHotIn bytes seed numCols .little space' place')
          (fun b => Roomy space' (place' b) b.length) bs qs₁ as₁ qs₂ as₂ →
        as₁ = repliesOf (fun x => some [⟨numCols.toUInt64, 1, column (bytes x)⟩]) qs₁ ∧
        as₂ = repliesOf (fun x => some [⟨numCols.toUInt64, 1, column (bytes x)⟩]) qs₂ := by
  obtain ⟨hnew, hrun⟩ := (C47_hash_partial seed numCols).2 h0
  have hex : ∀ b : List UInt8, ∃ i : UInt64, b.length < 2 ^ 31 →
      HashOneHot.exec ⟨seed, numCols⟩ b = .ok ⟨numCols.toUInt64, 1, i⟩ ∧ i.toNat < numCols.toNat := by
    intro b
    by_cases hl : b.length < 2 ^ 31
    · obtain ⟨⟨a, o, i⟩, h1, h2, h3, h4⟩ := hrun b hl
      have h3' : a = numCols.toUInt64 := UInt64.toNat_inj.1 (by rw [show a.toNat = numCols.toNat from h3, UInt32.toNat_toUInt64])
      have h2' : o = 1 := h2
      subst h3' h2'
      exact ⟨i, fun _ => ⟨h1, h4⟩⟩
    · exact ⟨0, fun h => absurd h hl⟩
  choose column hcol using hex
  refine ⟨column, fun x => (hcol _ (hb x)).2, ?_⟩
  · intro bs space space' place place' qs₁ qs₂ as₁ as₂ d
    have hmade : (hashOneHotIn bytes seed numCols) = fun host space place =>
        inferenceIn (ι := ι) (O := SingleValue UInt8) hashOneHotAr (Xf.ofFun fun (t : HashOneHot) x => t.exec (bytes x))
          (.ok (⟨seed, numCols⟩ : HashOneHot)) host space place := by
      funext host space place
      exact congrArg (fun m => inferenceIn (ι := ι) (O := SingleValue UInt8) hashOneHotAr
        (Xf.ofFun fun (t : HashOneHot) x => t.exec (bytes x)) m host space place) hnew
    rw [hmade] at d
    have h := C105_inference_function (c := hashOneHotAr) (O := SingleValue UInt8) (t := (⟨seed, numCols⟩ : HashOneHot))
      (f := fun (t : HashOneHot) x => t.exec (bytes x)) (hash_trips hnew) d
    have he : (fun x => ((HashOneHot.exec ⟨seed, numCols⟩ (bytes x)).toOption.map fun o => [o]))
        = fun x => some [(⟨numCols.toUInt64, 1, column (bytes x)⟩ : SingleValue UInt8)] := by
      funext x
      rw [(hcol _ (hb x)).1]
      rfl
    exact ⟨h.1.trans (congrArg (fun g => repliesOf g qs₁) he), h.2.trans (congrArg (fun g => repliesOf g qs₂) he)⟩

/-! ### Forward fill -/

/-- The rows of questions. -/
def rowsOf (qs : List (Ask ι)) : List ι := qs.filterMap fun
  | .row x => some x
  | .flush => none

/-- The answers of a forward fill imputer that has seen nothing yet: nothing to a flush, and to a row the last value that is not null
among the rows so far, or an error if there is none. -/
def FillsForward {A : Type} (qs : List (Ask (Option A))) (as : List (Option (List A))) : Prop :=
  as.length = qs.length ∧ ∀ (i : Nat) (q : Ask (Option A)), qs[i]? = some q → as[i]? = some (match q with
    | .flush => some []
    | .row _ => (((rowsOf (qs.take (i + 1))).filterMap id).getLast?).map fun v => [v])

private theorem forward_alone {A : Type} (d : Option A) (qs : List (Ask (Option A))) : ∀ l : Option A,
    (∃ l', (alone forwardFillXf ⟨d, l⟩ qs).2 = ⟨d, l'⟩) ∧ (alone forwardFillXf ⟨d, l⟩ qs).1.length = qs.length ∧
    ∀ (i : Nat) (q : Ask (Option A)), qs[i]? = some q → (alone forwardFillXf ⟨d, l⟩ qs).1[i]? = some (match q with
      | .flush => some []
      | .row _ => ((l.toList ++ (rowsOf (qs.take (i + 1))).filterMap id).getLast?).map fun v => [v]) := by
  induction qs with
  | nil => intro l; exact ⟨⟨l, rfl⟩, rfl, by simp⟩
  | cons q qs ih =>
    intro l
    rcases q with x | _
    · rcases x with _ | v
      · -- a null
        have hal : alone forwardFillXf (⟨d, l⟩ : ForwardFill A) (.row none :: qs)
            = ((l.map fun v => [v]) :: (alone forwardFillXf ⟨d, l⟩ qs).1, (alone forwardFillXf ⟨d, l⟩ qs).2) := by
          cases l <;> rfl
        rw [hal]
        obtain ⟨⟨l', h1⟩, h2, h3⟩ := ih l
        refine ⟨⟨l', h1⟩, congrArg Nat.succ h2, ?_⟩
        intro i q hq
        rcases i with _ | i
        · rw [List.getElem?_cons_zero] at hq ⊢
          cases Option.some.inj hq
          cases l <;> rfl
        · rw [List.getElem?_cons_succ] at hq ⊢
          rw [h3 i q hq]
          rfl
      · -- a value
        obtain ⟨⟨l', h1⟩, h2, h3⟩ := ih (some v)
        refine ⟨⟨l', h1⟩, congrArg Nat.succ h2, ?_⟩
        intro i q hq
        rcases i with _ | i
        · rw [List.getElem?_cons_zero] at hq
          cases Option.some.inj hq
          cases l <;> rfl
        · rw [List.getElem?_cons_succ] at hq
          refine (h3 i q hq).trans ?_
          rcases q with x | _
          · show some _ = some _
            have : ∀ L : List A, ((some v).toList ++ L).getLast? = (l.toList ++ (v :: L)).getLast? := by
              intro L
              cases l
              · rfl
              · simp [List.getLast?_cons]
            exact congrArg (fun o : Option A => some (o.map fun v => [v])) (this _)
          · rfl
    · obtain ⟨⟨l', h1⟩, h2, h3⟩ := ih l
      refine ⟨⟨l', h1⟩, congrArg Nat.succ h2, ?_⟩
      intro i q hq
      rcases i with _ | i
      · rw [List.getElem?_cons_zero] at hq
        cases Option.some.inj hq
        rfl
      · rw [List.getElem?_cons_succ] at hq
        exact h3 i q hq

theorem forward_keeps {A : Type} (t : ForwardFill A) (qs : List (Ask (Option A))) :
    ∃ l, (alone forwardFillXf t qs).2 = ⟨t.default, l⟩ := (forward_alone t.default qs t.last).1

theorem forward_becomes {A : Type} [Traits A] [Fits A] [Codec A] (last : Option A) :
    Becomes (forwardFillAr A) ⟨none, last⟩ (ForwardFill.new none) := by
  obtain ⟨bs, h1, h2, -⟩ := library_roundTrips (forwardFill A) (.forwardFill A) none (none, none) rfl (by show ∀ x, (none : Option A) = some x → _; simp)
  refine ⟨bs, h1, ?_⟩
  exact Reads.map (fun (p : Option A × Option A) => (⟨p.1, p.2⟩ : ForwardFill A)) h2

/-- **C105** (forward fill imputer) In the first process every null gets the last value before it, and an error if there is none.
The second process knows nothing of the rows of the first: there, the same holds for its own rows only. -/
theorem C105_forward_fill {A : Type} [Traits A] [Fits A] [Codec A] {bs : List (List (Option A))} {host host' : Endian} {space space' : Nat}
    {place place' : List UInt8 → Nat} {qs₁ qs₂ : List (Ask (Option A))} {as₁ as₂ : List (Option (List A))}
    (d : Deployment (forwardFillIn A host space place) (forwardFillIn A host' space' place')
      (fun b => Roomy space' (place' b) b.length) bs qs₁ as₁ qs₂ as₂) :
    FillsForward qs₁ as₁ ∧ FillsForward qs₂ as₂ := by
  obtain ⟨⟨l', hl⟩, h1, h2⟩ := forward_alone (A := A) none qs₁ none
  obtain ⟨-, h3, h4⟩ := forward_alone (A := A) none qs₂ none
  obtain ⟨ha, hb⟩ := C105_inference (c := forwardFillAr A) (Y := forwardFillXf) (t := ForwardFill.new none) (t' := ForwardFill.new none)
    (by
      have hx : (alone forwardFillXf (ForwardFill.new (none : Option A)) qs₁).2 = ⟨none, l'⟩ := hl
      exact hx ▸ forward_becomes l') d
  subst ha hb
  exact ⟨⟨h1, h2⟩, ⟨h3, h4⟩⟩

end Feat.CApi
