import Verif.Proofs.Format
import Verif.Model.TimeSeriesLoad
import Verif.Model.UMapOps
import Verif.Model.OMapOps
import Verif.Props.ChainArchive
import Verif.Props.GrainArchive
import Verif.Model.FloatMinMaxArchive
/-
C100: loading a transformer from arbitrary bytes.
-/
namespace Feat
variable {α β : Type}

/-- The transformers of the library, each with the format of its parameters. -/
inductive LoadsAs : (c : TClass) → Parser c.Params → Prop
  | oneHot (K) [DecidableEq K] [Traits K] [Fits K] [Codec K] [Format K] [Formatted K] :
    LoadsAs (oneHot K) (Format.parse (T := UMap K UInt32 × Bool))
  | labelEncoder (K) [DecidableEq K] [Traits K] [Fits K] [Codec K] [Format K] [Formatted K] :
    LoadsAs (labelEncoder K) (Format.parse (T := UMap K UInt32 × Bool))
  | numericalize (K) [DecidableEq K] [Traits K] [Fits K] [Codec K] [Format K] [Formatted K] :
    LoadsAs (numericalize K) (Format.parse (T := UMap K UInt32))
  | hashOneHot : LoadsAs hashOneHot (Format.parse (T := UInt32 × UInt32))
  | minMaxScaler (T) [CInt T] [Scalar T] [Format T] [FormattedScalar T] :
    LoadsAs (minMaxScaler T) (Format.parse (T := T × T))
  | maxAbsScaler (T) [Scalar T] [Format T] [FormattedScalar T] :
    LoadsAs (maxAbsScaler T) (Format.parse (T := T))
  | robustScaler (T) [Scalar T] [Format T] [FormattedScalar T] :
    LoadsAs (robustScaler T) (Format.parse (T := T × T))
  | standardScaler : LoadsAs standardScaler (Format.parse (T := F64 × F64))
  | normalizer : LoadsAs normalizer (Format.parse (T := List F64))
  | projection (T) [Traits T] [Fits T] [Codec T] [Format T] [Formatted T] (c) :
    LoadsAs (projection T c) (Format.parse (T := Mat T c))
  | lagLead : LoadsAs lagLead (Format.parse (T := UInt32 × List Int64))
  | rollingWindow : LoadsAs rollingWindow (Format.parse (T := UInt8 × UInt32 × UInt32 × UInt32))
  | forwardFill (T) [Traits T] [Fits T] [Codec T] [Format T] [Formatted T] :
    LoadsAs (forwardFill T) (Format.parse (T := Option T))
  | backwardFill (T) [Traits T] [Fits T] [Codec T] [Format T] [Formatted T] :
    LoadsAs (backwardFill T) (Format.parse (T := Option T))
  | imputer (T) [Traits T] [Fits T] [Codec T] [Format T] [Formatted T] :
    LoadsAs (imputer T) (Format.parse (T := T))
  | shortGrainDropper : LoadsAs shortGrainDropper (Format.parse (T := USet (List Str)))
  | stringConversion (n) : LoadsAs (stringConversion n) (Format.parse (T := Bool))
  | inferenceOnly : LoadsAs inferenceOnly (Format.parse (T := Unit))
  | tfidf : LoadsAs tfidf (Format.parse (T := TfidfParams))
  | sampleAdd : LoadsAs sampleAdd (Format.parse (T := UInt32))
  | dateTime (lookup) : LoadsAs (dateTime lookup) (Format.parse (T := Str))

/-- These are transformers of C07 and C08. -/
theorem LoadsAs.inLibrary {c : TClass} {p : Parser c.Params} (h : LoadsAs c p) : InLibrary c := by
  cases h <;> constructor

private theorem of_type (T : Type) [Traits T] [Fits T] [Format T] [Formatted T] :
    Follows (Traits.deserialize : M Archive T) Format.parse ∧ Settled (Format.parse (T := T)) :=
  ⟨Formatted.follows, Formatted.settled⟩

private theorem params_follow {c : TClass} {p : Parser c.Params} (h : LoadsAs c p) :
    Follows (Traits.deserialize : M Archive c.Params) p ∧ Settled p := by
  cases h with
  | oneHot K => exact of_type (UMap K UInt32 × Bool)
  | labelEncoder K => exact of_type (UMap K UInt32 × Bool)
  | numericalize K => exact of_type (UMap K UInt32)
  | hashOneHot => exact of_type (UInt32 × UInt32)
  | minMaxScaler T => exact of_type (T × T)
  | maxAbsScaler T => exact of_type (T)
  | robustScaler T => exact of_type (T × T)
  | standardScaler => exact of_type (F64 × F64)
  | normalizer => exact of_type (List F64)
  | projection T c => exact of_type (Mat T c)
  | lagLead => exact of_type (UInt32 × List Int64)
  | rollingWindow => exact of_type (UInt8 × UInt32 × UInt32 × UInt32)
  | forwardFill T => exact of_type (Option T)
  | backwardFill T => exact of_type (Option T)
  | imputer T => exact of_type (T)
  | shortGrainDropper => exact of_type (USet (List Str))
  | stringConversion n => exact of_type (Bool)
  | inferenceOnly => exact of_type (Unit)
  | tfidf => exact of_type (TfidfParams)
  | sampleAdd => exact of_type (UInt32)
  | dateTime lookup => exact of_type (Str)

/-- What is read can be written, except that the offsets of a lag/lead operator may be too large. -/
private theorem params_fit {c : TClass} {p : Parser c.Params} (h : LoadsAs c p) (hl : c ≠ lagLead)
    (bs : List UInt8) (a : c.Params) (rest : List UInt8) (ha : p bs = .done a rest) : Fits.fits a := by
  cases h with
  | oneHot K => exact Formatted.fits (T := UMap K UInt32 × Bool) _ _ _ ha
  | labelEncoder K => exact Formatted.fits (T := UMap K UInt32 × Bool) _ _ _ ha
  | numericalize K => exact Formatted.fits (T := UMap K UInt32) _ _ _ ha
  | hashOneHot => exact Formatted.fits (T := UInt32 × UInt32) _ _ _ ha
  | minMaxScaler T => exact Formatted.fits (T := T × T) _ _ _ ha
  | maxAbsScaler T => exact Formatted.fits (T := T) _ _ _ ha
  | robustScaler T => exact Formatted.fits (T := T × T) _ _ _ ha
  | standardScaler => exact Formatted.fits (T := F64 × F64) _ _ _ ha
  | normalizer => exact Formatted.fits (T := List F64) _ _ _ ha
  | projection T c => exact Formatted.fits (T := Mat T c) _ _ _ ha
  | lagLead => exact absurd rfl hl
  | rollingWindow => exact Formatted.fits (T := UInt8 × UInt32 × UInt32 × UInt32) _ _ _ ha
  | forwardFill T => exact Formatted.fits (T := Option T) _ _ _ ha
  | backwardFill T => exact Formatted.fits (T := Option T) _ _ _ ha
  | imputer T => exact Formatted.fits (T := T) _ _ _ ha
  | shortGrainDropper => exact Formatted.fits (T := USet (List Str)) _ _ _ ha
  | stringConversion n => exact Formatted.fits (T := Bool) _ _ _ ha
  | inferenceOnly => exact Formatted.fits (T := Unit) _ _ _ ha
  | tfidf => exact Formatted.fits (T := TfidfParams) _ _ _ ha
  | sampleAdd => exact Formatted.fits (T := UInt32) _ _ _ ha
  | dateTime lookup => exact Formatted.fits (T := Str) _ _ _ ha

private theorem make_follows (r : Except Err α) : Follows (liftExcept r)
    (fun rest => match r with
      | .ok b => .done b rest
      | .error e => if e = .ub then .undefined else .refused) := by
  cases r with
  | ok a => exact Follows.pure a
  | error e =>
    cases e with
    | ub => exact Follows.undefine
    | _ => exact Follows.refuse _ trivial

private theorem version_follows : Follows readVersion (fun bs =>
    (Format.parse (T := UInt16 × UInt16) bs).andThen fun v rest =>
      if v = (1, 0) then .done () rest else .refused) := by
  have h16 : Follows (Scalar.read UInt16) Format.parse := Follows.scalar UInt16
  refine (Follows.bind h16 fun a => Follows.bind h16 fun b =>
    (?_ : Follows _ (fun rest => if (a, b) = ((1, 0) : UInt16 × UInt16) then .done () rest else .refused))).congr
      fun bs => ?_
  · by_cases hv : a ≠ 1 ∨ b ≠ 0
    · rw [if_pos hv]
      have : ¬ (a, b) = ((1, 0) : UInt16 × UInt16) := by
        rw [Prod.mk.injEq]; rcases hv with h | h
        · exact fun x => h x.1
        · exact fun x => h x.2
      simp only [if_neg this]
      exact Follows.refuse _ trivial
    · rw [if_neg hv]
      have : (a, b) = ((1, 0) : UInt16 × UInt16) := by
        rw [not_or, not_not, not_not] at hv
        rw [hv.1, hv.2]
      simp only [if_pos this]
      exact Follows.pure ()
  · show _ = (both Format.parse Format.parse bs).andThen _
    unfold both
    cases Format.parse (T := UInt16) bs with
    | refused => rfl
    | undefined => rfl
    | done a rest =>
      simp only [Parsed.andThen]
      cases Format.parse (T := UInt16) rest <;> rfl

private theorem afterVersion_follows {m : M Archive α} {p : Parser α} (h : Follows m p) :
    Follows (readVersion >>= fun _ => m) (afterVersion p) := by
  refine (Follows.bind version_follows fun _ => h).congr fun bs => ?_
  unfold afterVersion
  cases Format.parse (T := UInt16 × UInt16) bs with
  | refused => rfl
  | undefined => rfl
  | done v rest =>
    simp only [Parsed.andThen]
    by_cases hv : v = (1, 0)
    · simp only [if_pos hv]
    · simp only [if_neg hv]

theorem Settled.afterVersion {p : Parser α} (h : Settled p) : Settled (afterVersion p) := by
  refine Settled.bind (Formatted.settled (T := UInt16 × UInt16)) fun v => ?_
  split
  · exact h
  · exact Settled.refused

theorem Settled.built {p : Parser α} (h : Settled p) (make : α → Except Err β) : Settled (built make p) := by
  refine Settled.bind h fun a => ?_
  cases make a with
  | ok b => exact Settled.done b
  | error e =>
    show Settled (fun _ => if e = .ub then .undefined else .refused)
    split
    · exact Settled.undefined
    · exact Settled.refused

/-- **C100** Loading from arbitrary bytes: for every transformer class of the library and *every* byte sequence,
on every machine and wherever the bytes lie, the archive constructor does what the format says — it returns the
transformer the bytes describe and stops right behind them, or throws, or (in the cases the format names) does
something undefined; it never reads a byte outside the archive. -/
theorem C100_load (c : TClass) (p : Parser c.Params) (hc : LoadsAs c p) : Follows c.load (c.format p) := by
  have h1 : Follows ((Traits.deserialize : M Archive c.Params) >>= fun a => liftExcept (c.make a))
      (built c.make p) := Follows.bind (params_follow hc).1 fun a => make_follows (c.make a)
  unfold TClass.load TClass.format
  cases c.versioned with
  | false => exact h1
  | true => exact afterVersion_follows h1

/-- **C100** The min-max scaler over floating point numbers (which need not reload unchanged, see C97): it behaves as
its format says, and no bytes make loading it undefined. -/
theorem C100_float_min_max (T : Type) [FloatArith.FloType T] [Scalar T] [Format T] [FormattedScalar T] :
    Follows (floatMinMax T).load ((floatMinMax T).format (Format.parse (T := T × T))) ∧
      Settled ((floatMinMax T).format (Format.parse (T := T × T))) ∧
      ∀ t : MinMaxScaler T, (floatMinMax T).make ((floatMinMax T).toArchive t) = FloatScalers.reloadMinMax T t := by
  refine ⟨?_, ?_, fun t => rfl⟩
  · exact afterVersion_follows (Follows.bind (Formatted.follows (T := T × T)) fun a => make_follows _)
  · exact Settled.afterVersion (Settled.built (Formatted.settled (T := T × T)) _)

/-- **C100** Bytes behind the ones that describe the transformer make no difference. -/
theorem C100_trailing (c : TClass) (p : Parser c.Params) (hc : LoadsAs c p) : Settled (c.format p) := by
  have h1 := Settled.built (params_follow hc).2 c.make
  unfold TClass.format
  split
  · exact Settled.afterVersion h1
  · exact h1

/-- **C100** The time series imputer, whose archive constructor checks as it reads. -/
theorem C100_time_series (q : Nat) :
    Follows (timeSeriesLoad q) (timeSeriesFormat q) ∧ Settled (timeSeriesFormat q) := by
  constructor
  · refine afterVersion_follows ?_
    refine (Follows.bind (Formatted.follows (T := Duration q)) fun d =>
      Follows.bind (Formatted.follows (T := List UInt32)) fun types =>
        (?_ : Follows _ (fun rest =>
          if ∃ i ∈ types, ¬ validTypeId i then .refused
          else (Format.parse (T := UInt8) rest).andThen fun s rest =>
            if s.toNat < 1 ∨ 4 < s.toNat then .refused
            else (Format.parse (T := OMap (List Str) (List F64) × Bool) rest).andThen fun mb rest =>
              if types = [] ∨ d.ticks.toInt = 2 ^ 63 - 1 then .refused
              else .done (d, types, s, mb.1, mb.2) rest))).congr fun bs => ?_
    · by_cases ht : ∃ i ∈ types, ¬ validTypeId i
      · have : types.any (fun i => !validTypeId i) = true := by simpa using ht
        simp only [if_pos ht, this, if_true]
        exact Follows.refuse _ trivial
      · have : types.any (fun i => !validTypeId i) = false := by simpa using ht
        simp only [if_neg ht, this]
        refine Follows.bind (m := Scalar.read UInt8) (p := Format.parse)
          (Follows.scalar UInt8) fun s => ?_
        by_cases hs : s.toNat < 1 ∨ 4 < s.toNat
        · rw [if_pos (by omega)]
          simp only [if_pos hs]
          exact Follows.refuse _ trivial
        · rw [if_neg (by omega)]
          simp only [if_neg hs]
          refine (Follows.bind (Formatted.follows (T := OMap (List Str) (List F64))) fun m =>
            Follows.bind (m := Scalar.read Bool) (p := Format.parse) (Follows.scalar Bool) fun b =>
              (?_ : Follows _ (fun rest =>
                if types = [] ∨ d.ticks.toInt = 2 ^ 63 - 1 then .refused
                else .done (d, types, s, m, b) rest))).congr fun bs => ?_
          · by_cases h0 : types.length = 0
            · have : types = [] := by simpa using h0
              simp only [this, List.length_nil, if_true, true_or]
              exact Follows.refuse _ trivial
            · have : types ≠ [] := by simpa using h0
              simp only [h0, this, if_false, false_or]
              by_cases hd : d.ticks.toInt = 2 ^ 63 - 1
              · simp only [if_pos hd]; exact Follows.refuse _ trivial
              · simp only [if_neg hd]; exact Follows.pure _
          · show _ = (both Format.parse Format.parse bs).andThen _
            unfold both
            cases Format.parse (T := OMap (List Str) (List F64)) bs with
            | refused => rfl
            | undefined => rfl
            | done a rest =>
              simp only [Parsed.andThen]
              cases Format.parse (T := Bool) rest <;> rfl
    · show _ = (both Format.parse Format.parse bs).andThen _
      unfold both
      cases Format.parse (T := Duration q) bs with
      | refused => rfl
      | undefined => rfl
      | done a rest =>
        simp only [Parsed.andThen]
        cases Format.parse (T := List UInt32) rest <;> rfl
  · refine Settled.afterVersion (Settled.bind (Formatted.settled (T := Duration q × List UInt32)) fun dt => ?_)
    split
    · exact Settled.refused
    · refine Settled.bind (Formatted.settled (T := UInt8)) fun s => ?_
      split
      · exact Settled.refused
      · refine Settled.bind (Formatted.settled (T := OMap (List Str) (List F64) × Bool)) fun mb => ?_
        split
        · exact Settled.refused
        · exact Settled.done _

/-- **C100** A whole pipeline (of any length, nested or not) behaves as its stages, read from the last to the
first, say. -/
theorem C100_pipeline (l : List (Option ReadStage))
    (h : ∀ s, some s ∈ l → Follows s.c.load s.parse ∧ Settled s.parse) :
    Follows (pipelineAr (l.map (Option.map ReadStage.c))).load (pipelineFormat l) ∧
      Settled (pipelineFormat l) := by
  induction l with
  | nil => exact ⟨Follows.pure (), Settled.done ()⟩
  | cons o l ih =>
    obtain ⟨i1, i2⟩ := ih fun s hs => h s (by simp [hs])
    cases o with
    | none => exact ⟨i1, i2⟩
    | some s =>
      obtain ⟨s1, s2⟩ := h s (by simp)
      constructor
      · refine (Follows.bind i1 fun r => Follows.bind s1 fun t => Follows.pure (t, r)).congr fun bs => ?_
        simp only [pipelineFormat, mapped, both]
        cases pipelineFormat l bs with
        | refused => rfl
        | undefined => rfl
        | done r rest =>
          simp only [Parsed.andThen]
          cases s.parse rest <;> rfl
      · exact Settled.mapped (Settled.bind i2 fun a => Settled.bind s2 fun b => Settled.done (a, b)) _

/-- The part of the grain transformer's archive constructor before the flag is looked at. -/
private def grainHead {K : Type} [LinearOrder K] [Traits K] (c : ArClass) : M Archive (OMap K c.Obj × Bool) :=
  Scalar.read UInt64 >>= fun n => grainLoadLoop c n.toNat OMap.empty >>= fun m =>
    Scalar.read Bool >>= fun b => pure (m, b)

/-- The rest. -/
private def grainTail {K : Type} [LinearOrder K] (c : ArClass) (base' : Nat) (x : OMap K c.Obj × Bool) :
    M Archive (GrainTransformer K c.Obj) :=
  if x.2 = false then
    if x.1.entries.length = 0 then M.throw .runtimeError
    else pure ⟨true, none, x.1⟩
  else Archive.clone base' >>= fun ar => pure ⟨x.1.entries.isEmpty, some (c.load ar).1, x.1⟩

private theorem grain_split {K : Type} [LinearOrder K] [Traits K] (c : ArClass) (base' : Nat) :
    (GrainTransformer.load c base' : M Archive (GrainTransformer K c.Obj)) = grainHead c >>= grainTail c base' := by
  funext a
  show (Scalar.read UInt64 >>= fun n => grainLoadLoop c n.toNat OMap.empty >>= fun m =>
        Scalar.read Bool >>= fun b => grainTail c base' (m, b)) a = _
  unfold grainHead
  rw [M.bind_run, M.bind_run, M.bind_run]
  rcases Scalar.read UInt64 a with ⟨r1 | r1, a1⟩
  · rfl
  · dsimp only
    rw [M.bind_run, M.bind_run]
    rcases grainLoadLoop (K := K) c r1.toNat OMap.empty a1 with ⟨r2 | r2, a2⟩
    · rfl
    · dsimp only
      rw [M.bind_run, M.bind_run]
      rcases Scalar.read Bool a2 with ⟨r3 | r3, a3⟩
      · rfl
      · rfl

private theorem grain_loop_follows {K : Type} [LinearOrder K] [Traits K] [Fits K] [Format K] [Formatted K] (s : ReadStage)
    (hs : Follows s.c.load s.parse) (n : Nat) (m : OMap K s.c.Obj) :
    Follows (grainLoadLoop s.c n m) (grainItems Format.parse s.parse n m) := by
  induction n generalizing m with
  | zero => exact Follows.pure m
  | succ n ih =>
    refine (Follows.bind (Formatted.follows (T := K)) fun k => Follows.bind hs fun t =>
      (?_ : Follows _ (fun rest => if (m.find? k).isSome then .refused
        else grainItems Format.parse s.parse n (m.emplace k t) rest))).congr fun bs => ?_
    · by_cases hk : (m.find? k).isSome
      · simp only [if_pos hk]; exact Follows.refuse _ trivial
      · simp only [if_neg hk]; exact ih _
    · simp only [grainItems, both]
      cases Format.parse (T := K) bs with
      | refused => rfl
      | undefined => rfl
      | done k rest =>
        simp only [Parsed.andThen]
        cases s.parse rest <;> rfl

private theorem grain_head_follows {K : Type} [LinearOrder K] [Traits K] [Fits K] [Format K] [Formatted K] (s : ReadStage)
    (hs : Follows s.c.load s.parse) : Follows (grainHead s.c : M Archive (OMap K s.c.Obj × Bool)) (fun bs =>
      (Format.parse (T := UInt64) bs).andThen fun n rest =>
        (grainItems Format.parse s.parse n.toNat OMap.empty rest).andThen fun m rest =>
          (Format.parse (T := Bool) rest).andThen fun b rest => .done (m, b) rest) :=
  Follows.bind (m := Scalar.read UInt64) (p := Format.parse) (Follows.scalar UInt64) fun n =>
    Follows.bind (grain_loop_follows s hs n.toNat OMap.empty) fun m =>
      Follows.bind (m := Scalar.read Bool) (p := Format.parse) (Follows.scalar Bool) fun b => Follows.pure (m, b)

private theorem grainFormat_eq {K T : Type} [LinearOrder K] (pk : Parser K) (pt : Parser T) (bs : List UInt8) :
    grainFormat pk pt bs = ((Format.parse (T := UInt64) bs).andThen fun n rest =>
        (grainItems pk pt n.toNat OMap.empty rest).andThen fun m rest =>
          (Format.parse (T := Bool) rest).andThen fun b rest => .done (m, b) rest).andThen fun x rest =>
      if (if x.2 then rest = [] else x.1.entries = []) then .refused else .done x rest := by
  unfold grainFormat
  cases Format.parse (T := UInt64) bs with
  | refused => rfl
  | undefined => rfl
  | done n rest =>
    simp only [Parsed.andThen]
    cases grainItems pk pt n.toNat OMap.empty rest with
    | refused => rfl
    | undefined => rfl
    | done m rest =>
      simp only []
      cases Format.parse (T := Bool) rest <;> rfl

/-- **C100** Grain transformers: the archive constructor does with any bytes what the format says; the bytes behind
the flag are left unread, and the transformer of grains to come is what they describe — if they describe none,
that shows only when a new grain comes. -/
theorem C100_grains {K : Type} [LinearOrder K] [Traits K] [Fits K] [Format K] [Formatted K] (s : ReadStage)
    (hs : Follows s.c.load s.parse) (h : Endian) (space base base' : Nat) (pre bs : List UInt8)
    (hr : Roomy space base (pre ++ bs).length) (hr' : Roomy space base' bs.length) :
    match grainFormat (Format.parse (T := K)) s.parse bs with
    | .done (m, more) rest => ∃ used, bs = used ++ rest ∧ ∃ g : GrainTransformer K s.c.Obj,
        GrainTransformer.load s.c base' (.rd h space base (pre ++ bs) pre.length)
          = (.ok g, .rd h space base (pre ++ bs) (pre ++ used).length) ∧
        g.transformers = m ∧ g.had = (!more || m.entries.isEmpty) ∧
        (if more then match s.parse rest with
            | .done t _ => g.create = some (.ok t)
            | .refused => ∃ e, g.create = some (.error e) ∧ e.isException
            | .undefined => g.create = some (.error .ub)
          else g.create = none)
    | .refused => ∃ e a', (GrainTransformer.load s.c base' : M Archive (GrainTransformer K s.c.Obj))
        (.rd h space base (pre ++ bs) pre.length) = (.error e, a') ∧ e.isException
    | .undefined => ∃ a', (GrainTransformer.load s.c base' : M Archive (GrainTransformer K s.c.Obj))
        (.rd h space base (pre ++ bs) pre.length) = (.error .ub, a') := by
  have hh := grain_head_follows (K := K) s hs h space base pre bs hr
  rw [grainFormat_eq, grain_split]
  dsimp only at hh
  revert hh
  generalize ((Format.parse (T := UInt64) bs).andThen fun n rest =>
        (grainItems Format.parse s.parse n.toNat OMap.empty rest).andThen fun m rest =>
          (Format.parse (T := Bool) rest).andThen fun b rest =>
            (.done (m, b) rest : Parsed (OMap K s.c.Obj × Bool))) = P
  intro hh
  cases P with
  | refused =>
    obtain ⟨e, a', h1, h2⟩ := hh
    exact ⟨e, a', M.bind_error _ h1, h2⟩
  | undefined =>
    obtain ⟨a', h1⟩ := hh
    exact ⟨a', M.bind_error _ h1⟩
  | done x rest =>
    obtain ⟨used, rfl, h1⟩ := hh
    obtain ⟨m, more⟩ := x
    simp only [Parsed.andThen]
    rw [M.bind_ok _ h1]
    cases more with
    | false =>
      simp only [Bool.false_eq_true, if_false, grainTail, if_true]
      by_cases hm : m.entries = []
      · rw [if_pos hm, if_pos (by rw [hm]; rfl)]
        exact ⟨_, _, rfl, trivial⟩
      · rw [if_neg hm, if_neg (by simpa using hm)]
        exact ⟨used, rfl, _, rfl, rfl, rfl, rfl⟩
    | true =>
      simp only [if_true, grainTail, Bool.true_eq_false, if_false]
      by_cases hrest : rest = []
      · rw [if_pos hrest]
        subst hrest
        refine ⟨.runtimeError, Archive.rd h space base (pre ++ (used ++ [])) (pre ++ used).length,
          M.bind_error _ ?_, trivial⟩
        · simp only [Archive.clone, Archive.rd, Archive.endp, List.append_nil]
          rw [if_neg (by simp), if_pos trivial]
      · rw [if_neg hrest]
        have hpos : 0 < rest.length := List.length_pos_iff.2 hrest
        have hclone : Archive.clone base' (Archive.rd h space base (pre ++ (used ++ rest)) (pre ++ used).length)
            = (.ok (Archive.rd h space base' rest 0),
               Archive.rd h space base (pre ++ (used ++ rest)) (pre ++ used).length) := by
          simp only [Archive.clone, Archive.rd, Archive.endp, Archive.memAt, Archive.mkReader]
          rw [if_neg (by simp), if_neg (by simp only [List.length_append]; omega),
            if_pos (by simp only [List.length_append]; omega)]
          have e1 : (base + (pre ++ (used ++ rest)).length - (base + (pre ++ used).length)) = rest.length := by
            simp only [List.length_append]; omega
          have e2 : (pre ++ (used ++ rest)).drop (base + (pre ++ used).length - base) = rest := by
            rw [Nat.add_sub_cancel_left, ← List.append_assoc, List.drop_left]
          rw [e1, e2, List.take_length]
          rfl
        rw [M.bind_ok _ hclone]
        have hc := hs h space base' [] rest (by
          unfold Roomy at hr' ⊢
          simp only [List.length_append, List.length_nil] at hr' ⊢
          omega)
        refine ⟨used, rfl, _, rfl, rfl, by simp, ?_⟩
        cases hp : s.parse rest with
        | done t r =>
          rw [hp] at hc
          obtain ⟨_, _, h2⟩ := hc
          simp only [List.nil_append, List.length_nil] at h2
          simp only [h2, if_true]
        | refused =>
          rw [hp] at hc
          obtain ⟨e, a', h2, h3⟩ := hc
          simp only [List.nil_append, List.length_nil] at h2
          exact ⟨e, by simp only [h2], h3⟩
        | undefined =>
          rw [hp] at hc
          obtain ⟨a', h2⟩ := hc
          simp only [List.nil_append, List.length_nil] at h2
          simp only [h2, if_true]

/-! ### What can be loaded -/

private theorem built_done {make : α → Except Err β} {p : Parser α} {bs : List UInt8} {t : β}
    {rest : List UInt8} (h : built make p bs = .done t rest) :
    ∃ a, p bs = .done a rest ∧ make a = .ok t := by
  obtain ⟨a, r, h1, h2⟩ := andThen_done h
  rcases hm : make a with e | b
  · rw [hm] at h2
    dsimp only at h2
    split at h2 <;> cases h2
  · rw [hm] at h2
    cases h2
    exact ⟨a, h1, hm⟩

private theorem afterVersion_done {p : Parser α} {bs : List UInt8} {t : α} {rest : List UInt8}
    (h : afterVersion p bs = .done t rest) : ∃ bs', p bs' = .done t rest := by
  obtain ⟨v, r, _, h2⟩ := andThen_done h
  split at h2
  · exact ⟨r, h2⟩
  · cases h2

private theorem format_done {c : TClass} {p : Parser c.Params} {bs : List UInt8} {t : c.Obj}
    {rest : List UInt8} (h : c.format p bs = .done t rest) :
    ∃ a bs', p bs' = .done a rest ∧ c.make a = .ok t := by
  unfold TClass.format at h
  split at h
  · obtain ⟨bs', h1⟩ := afterVersion_done h
    obtain ⟨a, h2, h3⟩ := built_done h1
    exact ⟨a, bs', h2, h3⟩
  · obtain ⟨a, h2, h3⟩ := built_done h
    exact ⟨a, bs, h2, h3⟩

/-- **C100** (partial: not for lag/lead operators, see `C100_lag_lead_refuted`) Whatever transformer arbitrary
bytes describe, saving it and loading it again gives the same transformer. -/
theorem C100_reload_partial (c : TClass) (p : Parser c.Params) (hc : LoadsAs c p) (hl : c ≠ lagLead)
    (bs : List UInt8) (t : c.Obj) (rest : List UInt8) (h : c.format p bs = .done t rest) :
    RoundTrips c.ar t := by
  obtain ⟨a, bs', h1, h2⟩ := format_done h
  exact library_roundTrips c hc.inLibrary a t h2 (params_fit hc hl bs' a rest h1)

/-- **C100** The same for the time series imputer. -/
theorem C100_time_series_reload (q : Nat) (hq : 0 < q) (bs : List UInt8) (t : (timeSeriesImputer q).Obj)
    (rest : List UInt8) (h : timeSeriesFormat q bs = .done t rest) : RoundTrips (timeSeriesImputer q).ar t := by
  obtain ⟨bs', h0⟩ := afterVersion_done h
  obtain ⟨dt, r1, h1, h2⟩ := andThen_done h0
  split at h2
  · cases h2
  rename_i ht
  obtain ⟨s, r2, h3, h4⟩ := andThen_done h2
  split at h4
  · cases h4
  rename_i hs
  obtain ⟨mb, r3, h5, h6⟩ := andThen_done h4
  split at h6
  · cases h6
  rename_i hd
  cases h6
  have f1 := Formatted.fits (T := Duration q × List UInt32) _ _ _ h1
  have f2 := Formatted.fits (T := OMap (List Str) (List F64) × Bool) _ _ _ h5
  refine library_roundTrips (timeSeriesImputer q) (.timeSeriesImputer q hq) (dt.1, dt.2, s, mb.1, mb.2) _ ?_
    ⟨f1.1, f1.2, trivial, f2.1, trivial⟩
  rw [not_or] at hd
  have e1 : dt.2.any (fun i => !validTypeId i) = false := by simpa using ht
  have e2 : ¬ dt.2.length = 0 := by simpa using hd.1
  simp only [timeSeriesImputer]
  rw [if_neg (by rw [e1]; decide), if_neg (by omega), if_neg e2, if_neg hd.2]

/-- **C100** No byte sequence yields an object its constructor would refuse: one-hot encoders and tf-idf
vectorizers have labels, hash encoders have columns, normalizers have norms and no negative one, standard scalers
have no negative deviation, projections are not empty, windows and horizons are positive and ordered. -/
theorem C100_checked :
    (∀ (K : Type) [DecidableEq K] [Traits K] [Fits K] [Format K] bs t rest,
      (oneHot K).format (Format.parse (T := UMap K UInt32 × Bool)) bs = .done t rest → t.1.entries ≠ []) ∧
    (∀ bs t rest, tfidf.format (Format.parse (T := TfidfParams)) bs = .done t rest →
      t.1.entries ≠ [] ∧ t.2.1.entries ≠ []) ∧
    (∀ bs t rest, hashOneHot.format (Format.parse (T := UInt32 × UInt32)) bs = .done t rest → 0 < t.2.toNat) ∧
    (∀ bs t rest, normalizer.format (Format.parse (T := List F64)) bs = .done t rest →
      t.1 ≠ [] ∧ (∀ x ∈ t.1, x.isNegative = false) ∧ t.2 = 0) ∧
    (∀ bs t rest, standardScaler.format (Format.parse (T := F64 × F64)) bs = .done t rest →
      t.2.isNegative = false) ∧
    (∀ (T : Type) [Traits T] [Fits T] [Format T] cm bs t rest,
      (projection T cm).format (Format.parse (T := Mat T cm)) bs = .done t rest →
      0 < t.inner ∧ t.outer ≠ []) ∧
    (∀ bs t rest, rollingWindow.format (Format.parse (T := UInt8 × UInt32 × UInt32 × UInt32)) bs = .done t rest →
      1 ≤ t.horizon.toNat ∧ 1 ≤ t.minWindow.toNat ∧ t.minWindow.toNat ≤ t.maxWindow.toNat ∧
        t.capacity.toNat ≠ 0) ∧
    (∀ bs t rest, lagLead.format (Format.parse (T := UInt32 × List Int64)) bs = .done t rest →
      1 ≤ t.horizon.toNat ∧ t.offsets ≠ []) ∧
    (∀ q bs t rest, timeSeriesFormat q bs = .done t rest →
      t.2.1 ≠ [] ∧ (∀ i ∈ t.2.1, validTypeId i) ∧ 1 ≤ t.2.2.1.toNat ∧ t.2.2.1.toNat ≤ 4 ∧
        t.1.ticks.toInt ≠ 2 ^ 63 - 1) := by
  refine ⟨?_, ?_, ?_, ?_, ?_, ?_, ?_, ?_, ?_⟩
  · intro K _ _ _ _ bs t rest h
    obtain ⟨a, _, _, h2⟩ := format_done h
    simp only [oneHot] at h2
    split at h2
    · cases h2
    · rename_i hn
      cases h2
      simpa using hn
  · intro bs t rest h
    obtain ⟨a, _, _, h2⟩ := format_done h
    simp only [tfidf] at h2
    split at h2
    · cases h2
    · split at h2
      · cases h2
      · rename_i hn hm
        cases h2
        exact ⟨by simpa using hn, by simpa using hm⟩
  · intro bs t rest h
    obtain ⟨a, _, _, h2⟩ := format_done h
    simp only [hashOneHot] at h2
    split at h2
    · cases h2
    · rename_i hn
      cases h2
      omega
  · intro bs t rest h
    obtain ⟨a, _, _, h2⟩ := format_done h
    simp only [normalizer] at h2
    split at h2
    · cases h2
    · split at h2
      · cases h2
      · rename_i hn hm
        cases h2
        exact ⟨hn, fun x hx => by
          rcases hx' : x.isNegative with _ | _
          · rfl
          · exact absurd (List.any_eq_true.2 ⟨x, hx, hx'⟩) hm, rfl⟩
  · intro bs t rest h
    obtain ⟨a, _, _, h2⟩ := format_done h
    simp only [standardScaler] at h2
    split at h2
    · cases h2
    · rename_i hn
      cases h2
      simpa using hn
  · intro T _ _ _ cm bs t rest h
    obtain ⟨a, _, _, h2⟩ := format_done h
    simp only [projection] at h2
    split at h2
    · cases h2
    · rename_i hn
      cases h2
      rw [Nat.mul_eq_zero, not_or] at hn
      exact ⟨Nat.pos_of_ne_zero hn.1, by simpa using hn.2⟩
  · intro bs t rest h
    obtain ⟨a, _, _, h2⟩ := format_done h
    simp only [rollingWindow] at h2
    repeat' split at h2
    all_goals cases h2
    rename_i a1 a2 a3 a4 a5
    dsimp only
    exact ⟨by omega, by omega, by omega, a5⟩
  · intro bs t rest h
    obtain ⟨a, _, _, h2⟩ := format_done h
    simp only [lagLead] at h2
    split at h2
    · cases h2
    · split at h2
      · cases h2
      · split at h2
        · cases h2
        · rename_i hz _ _ _ _ _
          cases h2
          exact ⟨by dsimp only; omega, by simp⟩
  · intro q bs t rest h
    obtain ⟨bs', h0⟩ := afterVersion_done h
    obtain ⟨dt, r1, h1, h2⟩ := andThen_done h0
    split at h2
    · cases h2
    rename_i ht
    obtain ⟨s, r2, h3, h4⟩ := andThen_done h2
    split at h4
    · cases h4
    rename_i hs
    obtain ⟨mb, r3, h5, h6⟩ := andThen_done h4
    split at h6
    · cases h6
    rename_i hd
    cases h6
    rw [not_or] at hd
    refine ⟨hd.1, ?_, by dsimp only; omega, by dsimp only; omega, hd.2⟩
    intro i hi
    by_contra hc
    exact ht ⟨i, hi, hc⟩

/-! ### Repeated keys -/

/-- **C100** When the bytes list a key twice, the first entry counts. -/
theorem C100_first_entry {K V : Type} :
    (∀ [DecidableEq K] (l : List (K × V)) (k : K),
      (UMap.ofPairs l).find? k = (l.find? (fun e => e.1 == k)).map (·.2)) ∧
    (∀ [LinearOrder K] (l : List (K × V)) (k : K),
      (OMap.ofPairs l).find? k = (l.find? (fun e => e.1 == k)).map (·.2)) ∧
    (∀ [DecidableEq K] (l : List K) (k : K), k ∈ (USet.ofItems l).elems ↔ k ∈ l) := by
  refine ⟨?_, ?_, ?_⟩
  · intro _ l k
    have key : ∀ (l : List (K × V)) (m : UMap K V),
        (l.foldl (fun (m : UMap K V) e => m.emplace e.1 e.2) m).find? k =
          (m.find? k).or ((l.find? (fun e => e.1 == k)).map (·.2)) := by
      intro l
      induction l with
      | nil => intro m; simp
      | cons e l ih =>
        intro m
        rw [List.foldl_cons, ih, UMap.find?_emplace, List.find?_cons]
        rcases m.find? k with _ | w
        · by_cases hk : k = e.1
          · subst hk; simp
          · have : (e.1 == k) = false := by simpa using fun h => hk h.symm
            simp [hk, this]
        · simp
    have h := key l ⟨[], by simp⟩
    exact h
  · intro _ l k
    have one : ∀ (m : OMap K V) (j : K) (v : V),
        (m.emplace j v).find? k = (m.find? k).or (if k = j then some v else none) := by
      intro m j v
      obtain ⟨es, hs⟩ := m
      simp only [OMap.emplace, OMap.find?]
      induction es with
      | nil =>
        by_cases hk : k = j
        · subst hk; simp [emplaceSorted]
        · have : (j == k) = false := by simpa using fun h => hk h.symm
          simp [emplaceSorted, hk, this]
      | cons e es ih =>
        obtain ⟨j', v'⟩ := e
        have hs' := List.pairwise_cons.1 hs
        simp only [emplaceSorted]
        split
        · rename_i hlt
          by_cases hk : k = j
          · subst hk
            have hno : ((j', v') :: es).find? (fun e => e.1 == k) = none := by
              rw [List.find?_eq_none]
              intro e he
              rcases List.mem_cons.1 he with rfl | he
              · simpa using ne_of_gt hlt
              · simpa using ne_of_gt (lt_trans hlt (hs'.1 e he))
            rw [hno]; simp
          · have : (j == k) = false := by simpa using fun h => hk h.symm
            simp [hk, List.find?_cons, this]
        · split
          · rename_i _ hj
            by_cases hk : k = j
            · subst hk; subst hj; simp
            · simp [hk]
          · rename_i h1 h2
            by_cases hk : j' = k
            · subst hk; simp
            · have : (j' == k) = false := by simpa using hk
              simp only [List.find?_cons, this]
              exact ih hs'.2
    have key : ∀ (l : List (K × V)) (m : OMap K V),
        (l.foldl (fun (m : OMap K V) e => m.emplace e.1 e.2) m).find? k =
          (m.find? k).or ((l.find? (fun e => e.1 == k)).map (·.2)) := by
      intro l
      induction l with
      | nil => intro m; simp
      | cons e l ih =>
        intro m
        rw [List.foldl_cons, ih, one, List.find?_cons]
        rcases m.find? k with _ | w
        · by_cases hk : k = e.1
          · subst hk; simp
          · have : (e.1 == k) = false := by simpa using fun h => hk h.symm
            simp [hk, this]
        · simp
    exact key l ⟨[], by simp⟩
  · intro _ l k
    have key : ∀ (l : List K) (m : USet K),
        k ∈ (l.foldl (fun (m : USet K) e => m.emplace e) m).elems ↔ k ∈ m.elems ∨ k ∈ l := by
      intro l
      induction l with
      | nil => intro m; simp
      | cons e l ih =>
        intro m
        rw [List.foldl_cons, ih]
        have : k ∈ (m.emplace e).elems ↔ k ∈ m.elems ∨ k = e := by
          unfold USet.emplace
          split
          · rename_i he
            constructor
            · exact .inl
            · rintro (h | rfl)
              · exact h
              · exact he
          · simp
        rw [this, List.mem_cons, or_assoc]
    have h := key l ⟨[], by simp⟩
    unfold USet.ofItems
    simpa using h

/-! ### When loading is always defined -/

/-- Every byte sequence of the format has a meaning, or is refused. -/
class Defined (T : Type) [Format T] : Prop where
  defined : ∀ bs, (Format.parse (T := T) bs) ≠ .undefined

private theorem andThen_defined {p : Parsed α} {q : α → List UInt8 → Parsed β} (hp : p ≠ .undefined)
    (hq : ∀ a r, q a r ≠ .undefined) : p.andThen q ≠ .undefined := by
  cases p with
  | done a r => exact hq a r
  | refused => intro h; cases h
  | undefined => exact absurd rfl hp

private theorem fixed_defined {n : Nat} {f : Nat → α} (bs : List UInt8) :
    fixed n (fun k => some (f k)) bs ≠ .undefined := by
  unfold fixed
  split <;> intro h <;> cases h

instance : Defined UInt8 := ⟨fixed_defined⟩
instance : Defined UInt16 := ⟨fixed_defined⟩
instance : Defined UInt32 := ⟨fixed_defined⟩
instance : Defined UInt64 := ⟨fixed_defined⟩
instance : Defined Int8 := ⟨fixed_defined⟩
instance : Defined Int16 := ⟨fixed_defined⟩
instance : Defined Int32 := ⟨fixed_defined⟩
instance : Defined Int64 := ⟨fixed_defined⟩
instance : Defined F32 := ⟨fixed_defined⟩
instance : Defined F64 := ⟨fixed_defined⟩
instance : Defined Unit := ⟨fun _ h => by cases h⟩
instance : Defined Str := ⟨fun bs => andThen_defined (Defined.defined (T := UInt32) bs) fun n r => by
  split <;> intro h <;> cases h⟩

private theorem items_defined {p : Parser α} (hp : ∀ bs, p bs ≠ .undefined) (n : Nat) (bs : List UInt8) :
    items p n bs ≠ .undefined := by
  induction n generalizing bs with
  | zero => intro h; cases h
  | succ n ih =>
    exact andThen_defined (hp bs) fun x r => andThen_defined (ih r) fun xs r h => by cases h

private theorem counted_defined {p : Parser α} (hp : ∀ bs, p bs ≠ .undefined) (bs : List UInt8) :
    counted p bs ≠ .undefined :=
  andThen_defined (Defined.defined (T := UInt32) bs) fun n r => items_defined hp n.toNat r

section
variable {A B : Type} [Format A] [Format B] [Defined A] [Defined B]

instance : Defined (List A) := ⟨counted_defined Defined.defined⟩
instance instDefinedPair : Defined (A × B) := ⟨fun bs => andThen_defined (Defined.defined bs) fun a r =>
  andThen_defined (Defined.defined r) fun b r h => by cases h⟩
instance [DecidableEq A] : Defined (UMap A B) := ⟨fun bs =>
  andThen_defined (counted_defined (Defined.defined (T := A × B)) bs) fun _ _ h => by cases h⟩
instance [LinearOrder A] : Defined (OMap A B) := ⟨fun bs =>
  andThen_defined (counted_defined (Defined.defined (T := A × B)) bs) fun _ _ h => by cases h⟩
omit [Format B] [Defined B] in
instance [DecidableEq A] : Defined (USet A) := ⟨fun bs =>
  andThen_defined (counted_defined (Defined.defined (T := A)) bs) fun _ _ h => by cases h⟩
end

private theorem format_defined {c : TClass} {p : Parser c.Params} (hp : ∀ bs, p bs ≠ .undefined)
    (hm : ∀ a, c.make a ≠ .error .ub) (bs : List UInt8) : c.format p bs ≠ .undefined := by
  have hb : ∀ bs, built c.make p bs ≠ .undefined := by
    intro bs
    refine andThen_defined (hp bs) fun a r => ?_
    have := hm a
    rcases hr : c.make a with e | b
    · rw [hr] at this
      have : ¬ e = .ub := fun h => this (by rw [h])
      dsimp only
      rw [if_neg this]
      intro h; cases h
    · intro h; cases h
  unfold TClass.format
  split
  · refine andThen_defined (Defined.defined (T := UInt16 × UInt16) bs) fun v r => ?_
    split
    · exact hb r
    · intro h; cases h
  · exact hb bs

/-- **C100** Classes whose parameters contain no `bool`, matrix or duration are safe against any bytes: loading
returns a transformer or throws.  These are the numericalizer, the hash encoder, the max-abs, robust and standard
scalers, the normalizer, the rolling windows, the imputers of a given value, the short grain dropper, the
featurizers without parameters, the sample featurizer and (if looking up a country is) the date featurizer. -/
theorem C100_safe :
    (∀ (K : Type) [DecidableEq K] [Traits K] [Fits K] [Format K] [Defined K] bs,
      (numericalize K).format (Format.parse (T := UMap K UInt32)) bs ≠ .undefined) ∧
    (∀ bs, hashOneHot.format (Format.parse (T := UInt32 × UInt32)) bs ≠ .undefined) ∧
    (∀ (T : Type) [Scalar T] [Format T] [Defined T] bs,
      (maxAbsScaler T).format (Format.parse (T := T)) bs ≠ .undefined ∧
      (robustScaler T).format (Format.parse (T := T × T)) bs ≠ .undefined) ∧
    (∀ bs, standardScaler.format (Format.parse (T := F64 × F64)) bs ≠ .undefined) ∧
    (∀ bs, normalizer.format (Format.parse (T := List F64)) bs ≠ .undefined) ∧
    (∀ bs, rollingWindow.format (Format.parse (T := UInt8 × UInt32 × UInt32 × UInt32)) bs ≠ .undefined) ∧
    (∀ (T : Type) [Traits T] [Fits T] [Format T] [Defined T] bs,
      (imputer T).format (Format.parse (T := T)) bs ≠ .undefined) ∧
    (∀ bs, shortGrainDropper.format (Format.parse (T := USet (List Str))) bs ≠ .undefined) ∧
    (∀ bs, inferenceOnly.format (Format.parse (T := Unit)) bs ≠ .undefined) ∧
    (∀ bs, sampleAdd.format (Format.parse (T := UInt32)) bs ≠ .undefined) ∧
    (∀ lookup, (∀ s, lookup s ≠ .error .ub) → ∀ bs,
      (dateTime lookup).format (Format.parse (T := Str)) bs ≠ .undefined) := by
  refine ⟨?_, ?_, ?_, ?_, ?_, ?_, ?_, ?_, ?_, ?_, ?_⟩
  · intro K _ _ _ _ _
    exact format_defined (Defined.defined (T := UMap K UInt32)) fun a h => by cases h
  · refine format_defined (Defined.defined (T := UInt32 × UInt32)) fun a => ?_
    simp only [hashOneHot]
    split <;> intro h <;> cases h
  · intro T _ _ _ bs
    exact ⟨format_defined (c := maxAbsScaler T) (Defined.defined (T := T)) (fun a h => by cases h) bs,
      format_defined (c := robustScaler T) (Defined.defined (T := T × T)) (fun a h => by cases h) bs⟩
  · refine format_defined (Defined.defined (T := F64 × F64)) fun a => ?_
    simp only [standardScaler]
    split <;> intro h <;> cases h
  · refine format_defined (Defined.defined (T := List F64)) fun a => ?_
    simp only [normalizer]
    repeat' split
    all_goals intro h; cases h
  · refine format_defined (Defined.defined (T := UInt8 × UInt32 × UInt32 × UInt32)) fun a => ?_
    simp only [rollingWindow]
    repeat' split
    all_goals intro h; cases h
  · intro T _ _ _ _
    exact format_defined (Defined.defined (T := T)) fun a h => by cases h
  · exact format_defined (Defined.defined (T := USet (List Str))) fun a h => by cases h
  · exact format_defined (Defined.defined (T := Unit)) fun a h => by cases h
  · exact format_defined (Defined.defined (T := UInt32)) fun a h => by cases h
  · intro lookup hl
    refine format_defined (Defined.defined (T := Str)) fun a => ?_
    simp only [dateTime]
    split
    · intro h; cases h
    · have := hl a
      rcases hr : lookup a with e | b
      · rw [hr] at this
        dsimp only
        intro h
        cases h
        exact this rfl
      · intro h; cases h

/-! ### When it is not -/

private theorem undefined_of {m : M Archive α} {p : Parser α} (hf : Follows m p) (bs : List UInt8)
    (hb : p bs = .undefined) (h : Endian) (base : Nat) (hr : Roomy (2 ^ 64) base bs.length) :
    ∃ a', m (Archive.mkReader h (2 ^ 64) base bs) = (.error .ub, a') := by
  have h1 := hf h (2 ^ 64) base [] bs hr
  rw [hb] at h1
  exact h1

/-- **C100** fails as a promise of safety: short byte sequences make the loading of these classes undefined, on
any machine and at any address — a flag byte 2 (label encoder, string conversion, fill imputers), a negative
number of rows (principal components), an offset -2^63 (lag/lead), a 32-bit range wider than 2^31 (min-max
scaler), a frequency beyond 2^63 ticks (time series imputer). -/
theorem C100_undefined_refuted (h : Endian) (base : Nat) (hr : base < 2 ^ 62) :
    (∃ a', (labelEncoder Str).load (Archive.mkReader h (2 ^ 64) base [1, 0, 0, 0, 0, 0, 0, 0, 2]) = (.error .ub, a')) ∧
    (∀ n, ∃ a', (stringConversion n).load (Archive.mkReader h (2 ^ 64) base [1, 0, 0, 0, 2]) = (.error .ub, a')) ∧
    (∃ a', (forwardFill F64).load (Archive.mkReader h (2 ^ 64) base [1, 0, 0, 0, 2]) = (.error .ub, a')) ∧
    (∃ a', (backwardFill F64).load (Archive.mkReader h (2 ^ 64) base [1, 0, 0, 0, 2]) = (.error .ub, a')) ∧
    (∃ a', (projection F64 true).load (Archive.mkReader h (2 ^ 64) base
      ([1, 0, 0, 0] ++ [255, 255, 255, 255, 255, 255, 255, 255] ++ [1, 0, 0, 0, 0, 0, 0, 0])) = (.error .ub, a')) ∧
    (∃ a', lagLead.load (Archive.mkReader h (2 ^ 64) base
      ([1, 0, 0, 0] ++ [1, 0, 0, 0] ++ [1, 0, 0, 0] ++ [0, 0, 0, 0, 0, 0, 0, 128])) = (.error .ub, a')) ∧
    (∃ a', (minMaxScaler Int32).load (Archive.mkReader h (2 ^ 64) base
      ([1, 0, 0, 0] ++ [0, 0, 0, 128] ++ [255, 255, 255, 127])) = (.error .ub, a')) ∧
    (∃ a', (timeSeriesLoad 1000) (Archive.mkReader h (2 ^ 64) base
      ([1, 0, 0, 0] ++ [0, 0, 0, 0, 0, 0, 0, 64])) = (.error .ub, a')) := by
  have room : ∀ n, n < 100 → Roomy (2 ^ 64) base n := by intro n hn; unfold Roomy; omega
  refine ⟨?_, ?_, ?_, ?_, ?_, ?_, ?_, ?_⟩
  · exact undefined_of (C100_load _ _ (.labelEncoder Str)) _ (by rfl) h base (room _ (by decide))
  · intro n
    exact undefined_of (C100_load _ _ (.stringConversion n)) _ (by rfl) h base (room _ (by decide))
  · exact undefined_of (C100_load _ _ (.forwardFill F64)) _ (by rfl) h base (room _ (by decide))
  · exact undefined_of (C100_load _ _ (.backwardFill F64)) _ (by rfl) h base (room _ (by decide))
  · exact undefined_of (C100_load _ _ (.projection F64 true)) _ (by rfl) h base (room _ (by decide))
  · exact undefined_of (C100_load _ _ .lagLead) _ (by rfl) h base (room _ (by decide))
  · exact undefined_of (C100_load _ _ (.minMaxScaler Int32)) _ (by rfl) h base (room _ (by decide))
  · exact undefined_of (C100_time_series 1000).1 _ (by rfl) h base (room _ (by decide))

/-- **C100** fails for lag/lead operators as far as reloading goes: an offset of 2^32 + 5 is accepted, and what
`save` then writes describes another operator (offset 5, another buffer). -/
theorem C100_lag_lead_refuted :
    ∃ bs t p' t', lagLead.format (Format.parse (T := UInt32 × List Int64)) bs = .done t [] ∧
      lagLead.toArchive t = p' ∧ lagLead.make p' = .ok t' ∧ t' ≠ t :=
  ⟨[1, 0, 0, 0] ++ [1, 0, 0, 0] ++ [1, 0, 0, 0] ++ [5, 0, 0, 0, 1, 0, 0, 0],
    ⟨1, 0, [5], 2 ^ 32 + 6⟩, (1, [5]), ⟨1, 0, [5], 6⟩, by rfl, by rfl, by rfl,
    fun h => absurd (congrArg LagLeadParams.bufferSize h) (by decide)⟩

/-! ### Examples -/

/-- A numericalizer over strings whose bytes list "a" twice, followed by two more bytes: the first label counts
and the two bytes are left. -/
example : ∃ t, (numericalize Str).format (Format.parse (T := UMap Str UInt32))
      ([1, 0, 0, 0] ++ [2, 0, 0, 0] ++ ([1, 0, 0, 0, 97] ++ [7, 0, 0, 0]) ++ ([1, 0, 0, 0, 97] ++ [8, 0, 0, 0]) ++ [9, 9])
    = .done t [9, 9] ∧ t.entries = [(⟨[97]⟩, 7)] := ⟨⟨[(⟨[97]⟩, 7)], by simp⟩, by rfl, rfl⟩

/-- Bytes that are refused: a string longer than what is left, zero hash columns. -/
example : (dateTime fun _ => .ok []).format (Format.parse (T := Str)) [1, 0, 0, 0, 3, 0, 0, 0, 70, 82] = .refused ∧
    hashOneHot.format (Format.parse (T := UInt32 × UInt32)) [1, 0, 0, 0, 7, 0, 0, 0, 0, 0, 0, 0] = .refused :=
  ⟨by rfl, by rfl⟩

/-- A pipeline of a hash encoder and, before it, a max-abs scaler of 16-bit numbers. -/
example : ∃ t, pipelineFormat [some ⟨(maxAbsScaler Int16).ar, (maxAbsScaler Int16).format (Format.parse (T := Int16))⟩,
      none, some ⟨hashOneHot.ar, hashOneHot.format (Format.parse (T := UInt32 × UInt32))⟩]
      ([1, 0, 0, 0] ++ [7, 0, 0, 0] ++ [9, 0, 0, 0] ++ [1, 0, 0, 0] ++ [254, 255])
    = .done t [] ∧ t = ((-2 : Int16), ((7 : UInt32), (9 : UInt32)), ()) := ⟨_, by rfl, rfl⟩

/-- The hypotheses of `C100_pipeline` are met by stages of the library, and by the time series imputer. -/
example : Follows (pipelineAr [some (⟨_, (timeSeriesImputer 10).save, timeSeriesLoad 10⟩ : ArClass), none, some (oneHot Str).ar]).load
    (pipelineFormat [some ⟨⟨_, (timeSeriesImputer 10).save, timeSeriesLoad 10⟩, timeSeriesFormat 10⟩, none,
      some ⟨(oneHot Str).ar, (oneHot Str).format (Format.parse (T := UMap Str UInt32 × Bool))⟩]) := by
  refine (C100_pipeline [some ⟨⟨_, (timeSeriesImputer 10).save, timeSeriesLoad 10⟩, timeSeriesFormat 10⟩, none,
      some ⟨(oneHot Str).ar, (oneHot Str).format (Format.parse (T := UMap Str UInt32 × Bool))⟩] ?_).1
  intro s hs
  simp only [List.mem_cons, Option.some.injEq, reduceCtorEq, List.not_mem_nil, or_false, false_or] at hs
  rcases hs with rfl | rfl
  · exact C100_time_series 10
  · exact ⟨C100_load _ _ (.oneHot Str), C100_trailing _ _ (.oneHot Str)⟩

/-- A grain transformer of sample adders: grain "a" with 5, and bytes for grains to come that have a wrong version;
loading succeeds, and the mistake shows later. -/
example : ∃ m rest, grainFormat (Format.parse (T := Str)) (sampleAdd.format (Format.parse (T := UInt32)))
      ([1, 0, 0, 0, 0, 0, 0, 0] ++ [1, 0, 0, 0, 97] ++ [1, 0, 0, 0, 5, 0, 0, 0] ++ [1] ++ [2, 0, 0, 0, 6, 0, 0, 0])
      = .done (m, true) rest ∧ m.entries = [(⟨[97]⟩, (5 : UInt32))] ∧ rest = [2, 0, 0, 0, 6, 0, 0, 0] ∧
      sampleAdd.format (Format.parse (T := UInt32)) rest = .refused :=
  ⟨⟨[(⟨[97]⟩, (5 : UInt32))], by simp⟩, _, by rfl, rfl, rfl, by rfl⟩

end Feat
