import Verif.Spec.Callbacks
/-
C79 what a throwing callback sees and what reaches the caller; C80 which calls can be repeated after it; C81 which can be
skipped.
-/
namespace Feat.Callbacks
variable {T U I M O O' A B V K S C : Type} {n : Nat}

/-! ### C79 -/

/-- For every call and every callback: the values passed are an initial segment of those of the undisturbed call.  If
the callback throws, it threw at the last of them, having accepted the earlier ones, and its exception ends the
call; otherwise it accepted all values and the call ends as with a callback that never throws. -/
theorem C79_seen (p : Prog T O) (cb : Callback O) :
    (p.runWith cb []).values <+: p.run.outs ∧
    ((∃ e, (p.runWith cb []).ending = .thrown e ∧ ∃ done o, (p.runWith cb []).values = done ++ [o] ∧
        Accepts cb done ∧ cb done o = some e) ∨
     (Accepts cb p.run.outs ∧ (p.runWith cb []).values = p.run.outs ∧
        (p.runWith cb []).ending = Ends p.run.err ∧ (p.runWith cb []).state = p.run.next)) := by
  suffices h : ∀ before, Accepts cb before →
      (p.runWith cb before).values <+: before ++ p.run.outs ∧
      ((∃ e, (p.runWith cb before).ending = .thrown e ∧ ∃ done o, (p.runWith cb before).values = done ++ [o] ∧
          Accepts cb done ∧ cb done o = some e) ∨
       (Accepts cb (before ++ p.run.outs) ∧ (p.runWith cb before).values = before ++ p.run.outs ∧
          (p.runWith cb before).ending = Ends p.run.err ∧ (p.runWith cb before).state = p.run.next)) by
    have := h [] (by intro a o b h; simp at h)
    simpa using this
  induction p with
  | ret t =>
    intro before hb
    simp [Prog.runWith, Prog.run, Ends, hb]
  | fail e t =>
    intro before hb
    simp [Prog.runWith, Prog.run, Ends, hb]
  | call o now rest ih =>
    intro before hb
    cases hc : cb before o with
    | some e =>
      simp only [Prog.runWith, hc, Prog.run]
      refine ⟨⟨rest.run.outs, by simp⟩, .inl ⟨e, rfl, before, o, rfl, hb, hc⟩⟩
    | none =>
      simp only [Prog.runWith, hc, Prog.run]
      have hb' : Accepts cb (before ++ [o]) := by
        intro a x b h
        rcases List.eq_nil_or_concat b with rfl | ⟨b', y, rfl⟩
        · have := List.append_inj' h (by simp)
          obtain ⟨h1, h2⟩ := this
          simp at h2
          subst h1; subst h2; exact hc
        · have h' : before ++ [o] = (a ++ x :: b') ++ [y] := by simpa using h
          have := List.append_inj' h' (by simp)
          exact hb a x b' this.1
      have := ih (before ++ [o]) hb'
      simpa using this

/-- The value at which the callback throws is a value of the undisturbed call. -/
example : ∃ (cb : Callback Nat), ((Prog.call 1 () (.call 2 () (.call 3 () (.ret ())))).runWith cb []).values = [1, 2] ∧
    ((Prog.call 1 () (.call 2 () (.call 3 () (.ret ())))).runWith cb []).ending = .thrown .logicError :=
  ⟨fun before _ => if before.length = 1 then some .logicError else none, rfl, rfl⟩

/-! The calls of this model with a callback that never throws are those of the other models. -/

@[simp] theorem emit_run (now : T) (os : List O) (p : Prog T O) :
    (Prog.emit now os p).run = ⟨os ++ p.run.outs, p.run.err, p.run.next⟩ := by
  induction os with
  | nil => rfl
  | cons o os ih => simp [Prog.emit, Prog.run, ih]

@[simp] theorem committed_run (r : Run T O) : (Prog.committed r).run = r := by
  rcases r with ⟨outs, _ | e, next⟩ <;> simp [Prog.committed, Prog.run]

@[simp] theorem map_run (s : T → U) (f : O → O') (p : Prog T O) :
    (p.map s f).run = ⟨p.run.outs.map f, p.run.err, s p.run.next⟩ := by
  induction p with
  | ret t => rfl
  | fail e t => rfl
  | call o now rest ih => simp [Prog.map, Prog.run, ih]

theorem bind_run (p : Prog T O) (k : T → Prog T O) :
    (p.bind k).run = match p.run with
      | ⟨outs, some e, t⟩ => ⟨outs, some e, t⟩
      | ⟨outs, none, t⟩ => ⟨outs ++ (k t).run.outs, (k t).run.err, (k t).run.next⟩ := by
  induction p with
  | ret t => simp [Prog.bind, Prog.run]
  | fail e t => rfl
  | call o now rest ih =>
    simp only [Prog.bind, Prog.run, ih]
    rcases rest.run with ⟨outs, _ | e, t⟩ <;> rfl

theorem C79_stateless (f : T → I → Except Err O) : (PXf.ofFun f).xf = Xf.ofFun f := by
  simp only [PXf.xf, PXf.ofFun, Xf.ofFun, Xf.mk.injEq]
  refine ⟨?_, rfl⟩
  funext t x
  cases f t x <;> rfl

theorem C79_forward_fill : (PXf.forwardFill (A := A)).xf = forwardFillXf := by
  simp only [PXf.xf, PXf.forwardFill, forwardFillXf, Xf.mk.injEq]
  refine ⟨?_, rfl⟩
  funext t x
  rcases t with ⟨d, _ | l⟩ <;> rcases x with _ | v <;> rfl

theorem backwardFlush_run (default : Option A) (d : A) (n : Nat) :
    (PXf.backwardFlush default d n).run = ⟨List.replicate n d, none, ⟨default, 0⟩⟩ := by
  induction n with
  | zero => rfl
  | succ n ih => simp [PXf.backwardFlush, Prog.run, ih, List.replicate_succ]

theorem C79_backward_fill : (PXf.backwardFill (A := A)).xf = backwardFillXf := by
  simp only [PXf.xf, PXf.backwardFill, backwardFillXf, Xf.mk.injEq]
  constructor
  · funext t x
    rcases x with _ | v
    · rfl
    · simp [BackwardFill.exec, Prog.run]
  · funext t
    rcases t with ⟨_ | d, p⟩
    · by_cases h : p = 0 <;> simp [BackwardFill.flush, h, Prog.run]
    · by_cases h : p = 0 <;> simp [BackwardFill.flush, h, Prog.run, backwardFlush_run]

theorem lagLeadPad_run (null : A) (n : Nat) (t : LagLead A) :
    (PXf.lagLeadPad null n t).run = LagLead.pad null n t := by
  induction n generalizing t with
  | zero => rfl
  | succ n ih =>
    simp only [PXf.lagLeadPad, bind_run, committed_run, LagLead.pad]
    rcases t.step null with ⟨outs, _ | e, t'⟩
    · simp [ih]
    · rfl

theorem C79_lag_lead (null : A) (conv : B → A) : (PXf.lagLead null conv).xf = lagLeadXf null conv := by
  simp only [PXf.xf, PXf.lagLead, lagLeadXf, Xf.mk.injEq]
  constructor
  · funext t x
    simp
  · funext t
    simp only [bind_run, lagLeadPad_run, LagLead.flush]
    rcases LagLead.pad null t.params.maxDelta.toNat t with ⟨outs, _ | e, t'⟩
    · simp [Prog.run]
    · rfl

theorem C79_rolling (agg : List A → Except Err B) : (PXf.rolling agg).xf = rollingXf agg := by
  simp [PXf.xf, PXf.rolling, rollingXf, Prog.run]

theorem C79_normalize (k : FloatNorms.NormInput V) : (PXf.normalize k).xf = FloatNorms.normalizeXf k := by
  simp only [PXf.xf, PXf.normalize, FloatNorms.normalizeXf, committed_run]
  rfl

theorem C79_imputer [LinearOrder K] (c : TsConfig K S) : (PXf.tsImputer c).xf = tsImputerXf c := by
  simp [PXf.xf, PXf.tsImputer, tsImputerXf]

theorem C79_pivot : (PXf.pivot (A := A)).xf = pivotXf := by
  simp only [PXf.xf, PXf.pivot, pivotXf, committed_run]
  rfl

theorem flushGrains_run [LinearOrder K] (P : PXf T I O) (l : List (K × T)) (m : OMap K T) :
    (PXf.flushGrains P l m).run = flushGrains P.xf l m := by
  induction l generalizing m with
  | nil => rfl
  | cons e rest ih =>
    obtain ⟨k, t⟩ := e
    simp only [PXf.flushGrains, bind_run, map_run, flushGrains, PXf.xf]
    rcases (P.flush t).run with ⟨outs, _ | e, t'⟩
    · simp only [ih, Run.grain]; rfl
    · rfl

theorem C79_grain [LinearOrder K] (P : PXf T I O) : (PXf.grain (K := K) P).xf = grainXf P.xf := by
  simp only [grainXf]
  rw [PXf.xf, Xf.mk.injEq]
  constructor
  · funext g x
    simp only [PXf.grain, GrainTransformer.exec]
    cases g.transformer x.1 with
    | error e => rfl
    | ok t => simp [Run.grain, PXf.xf]
  · funext g
    simp only [PXf.grain, GrainTransformer.flush, map_run, flushGrains_run, List.map_id]

theorem C79_filter (idxs : List (Fin n)) (W : PXf T (Cells C) (Cells C)) :
    (PXf.filter idxs W).xf.exec = (filterXf idxs W.xf).exec ∧
    ∀ t, Alike ((PXf.filter idxs W).xf.flush t) ((filterXf idxs W.xf).flush t) := by
  constructor
  · funext t row
    simp [PXf.xf, PXf.filter, filterXf]
  · intro t
    simp only [PXf.xf, PXf.filter, filterXf]
    cases h : W.flush t with
    | ret t' => simp [Prog.refusing, Prog.run, Alike]
    | fail e t' => simp [Prog.refusing, Prog.run, Alike]
    | call o now rest => simp [Prog.refusing, Prog.run, Alike]

/-! Pipelines: the values, and the exception if any, are those of `Chain.xf`, whose state after an exception is a
simplification. -/

theorem inside_run (now : T) (p : Prog U O) (k : U → Prog (T × U) O) :
    (p.inside now k).run = match p.run with
      | ⟨outs, some e, u⟩ => ⟨outs, some e, (now, u)⟩
      | ⟨outs, none, u⟩ => ⟨outs ++ (k u).run.outs, (k u).run.err, (k u).run.next⟩ := by
  induction p with
  | ret t => simp [Prog.inside, Prog.run]
  | fail e t => rfl
  | call o now rest ih =>
    simp only [Prog.inside, Prog.run, ih]
    rcases rest.run with ⟨outs, _ | e, t⟩ <;> rfl

/-- The values of the first half are passed to the second half one after the other. -/
theorem through_run (Q : PXf U M O) (p : Prog T M) (u : U) :
    ∃ now, (p.through Q.exec u).run = match Q.xf.execAll u p.run.outs with
      | ⟨outs, some e, u'⟩ => ⟨outs, some e, (now, u')⟩
      | ⟨outs, none, u'⟩ => ⟨outs, p.run.err, (p.run.next, u')⟩ := by
  induction p generalizing u with
  | ret t => exact ⟨t, by simp [Prog.through, Prog.run, Xf.execAll]⟩
  | fail e t => exact ⟨t, by simp [Prog.through, Prog.run, Xf.execAll]⟩
  | call m now rest ih =>
    simp only [Prog.through, inside_run, Prog.run, Xf.execAll]
    have hx : Q.xf.exec u m = (Q.exec u m).run := rfl
    rw [hx]
    rcases (Q.exec u m).run with ⟨outs, _ | e, u'⟩
    · obtain ⟨now', h⟩ := ih u'
      refine ⟨now', ?_⟩
      simp only [h]
      rcases Q.xf.execAll u' rest.run.outs with ⟨outs', _ | e', u''⟩ <;> rfl
    · exact ⟨now, rfl⟩

theorem Alike.refl (a : Run T O) : Alike a a := ⟨rfl, rfl, fun _ => rfl⟩

theorem execAll_alike {X Y : Xf T I O} (h : ∀ t x, Alike (X.exec t x) (Y.exec t x)) (xs : List I) (t : T) :
    Alike (X.execAll t xs) (Y.execAll t xs) := by
  induction xs generalizing t with
  | nil => exact .refl _
  | cons x xs ih =>
    have hx := h t x
    simp only [Xf.execAll]
    rcases hX : X.exec t x with ⟨o, _ | e, t1⟩ <;> rcases hY : Y.exec t x with ⟨o', _ | e', t2⟩ <;>
      rw [hX, hY] at hx <;> obtain ⟨h1, h2, h3⟩ := hx <;> simp at h1 h2 h3
    · subst h1; subst h3
      obtain ⟨i1, i2, i3⟩ := ih t1
      exact ⟨by simp [i1], i2, i3⟩
    · subst h1; subst h2
      exact ⟨rfl, rfl, fun h => by simp at h⟩

@[simp] theorem xf_exec (P : PXf T I O) (t : T) (x : I) : P.xf.exec t x = (P.exec t x).run := rfl
@[simp] theorem xf_flush (P : PXf T I O) (t : T) : P.xf.flush t = (P.flush t).run := rfl

/-- Pipelines of any length. -/
theorem C79_pipeline (P : PXf T V V) (n : Nat) :
    (∀ ts v, Alike ((PXf.chain P n).xf.exec ts v) ((Chain.xf P.xf n).exec ts v)) ∧
    (∀ ts, Alike ((PXf.chain P n).xf.flush ts) ((Chain.xf P.xf n).flush ts)) := by
  induction n with
  | zero => exact ⟨fun ts v => .refl _, fun ts => .refl _⟩
  | succ n ih =>
    obtain ⟨ihe, ihf⟩ := ih
    constructor
    · intro ts v
      rcases ts with _ | ⟨_ | t, ts⟩
      · exact .refl _
      · obtain ⟨h1, h2, h3⟩ := ihe ts v
        refine ⟨?_, ?_, ?_⟩
        · simpa [PXf.chain, Chain.xf] using h1
        · simpa [PXf.chain, Chain.xf] using h2
        · intro h
          have h' : ((PXf.chain P n).xf.exec ts v).err = none := by simpa [PXf.chain] using h
          have := h3 h'
          simpa [PXf.chain, Chain.xf] using this
      · obtain ⟨now, h⟩ := through_run (PXf.chain P n) (P.exec t v) ts
        have ha := execAll_alike ihe (P.exec t v).run.outs ts
        simp only [xf_exec, PXf.chain, Chain.xf, PXf.pipe, map_run, h, List.map_id]
        rcases hX : (PXf.chain P n).xf.execAll ts (P.exec t v).run.outs with ⟨o, _ | e, t1⟩ <;>
          rcases hY : (Chain.xf P.xf n).execAll ts (P.exec t v).run.outs with ⟨o', _ | e', t2⟩ <;>
          rw [hX, hY] at ha <;> obtain ⟨h1, h2, h3⟩ := ha <;> simp at h1 h2 h3
        · subst h1; subst h3
          first | simp [hY, Alike] | simp [hX, Alike]
        · subst h1; subst h2
          first | simp [hY, Alike] | simp [hX, Alike]
    · intro ts
      rcases ts with _ | ⟨_ | t, ts⟩
      · exact .refl _
      · obtain ⟨h1, h2, h3⟩ := ihf ts
        refine ⟨?_, ?_, ?_⟩
        · simpa [PXf.chain, Chain.xf] using h1
        · simpa [PXf.chain, Chain.xf] using h2
        · intro h
          have h' : ((PXf.chain P n).xf.flush ts).err = none := by simpa [PXf.chain] using h
          have := h3 h'
          simpa [PXf.chain, Chain.xf] using this
      · obtain ⟨now, h⟩ := through_run (PXf.chain P n) (P.flush t) ts
        have ha := execAll_alike ihe (P.flush t).run.outs ts
        simp only [xf_flush, PXf.chain, Chain.xf, PXf.pipe, map_run, bind_run, h, List.map_id]
        rcases hX : (PXf.chain P n).xf.execAll ts (P.flush t).run.outs with ⟨o, _ | e, t1⟩ <;>
          rcases hY : (Chain.xf P.xf n).execAll ts (P.flush t).run.outs with ⟨o', _ | e', t2⟩ <;>
          rw [hX, hY] at ha <;> obtain ⟨h1, h2, h3⟩ := ha <;> simp at h1 h2 h3
        · subst h1; subst h3
          obtain ⟨f1, f2, f3⟩ := ihf t1
          simp only [xf_flush] at f1 f2 f3
          first | simp only [hY] | simp only [hX]
          cases he : (P.flush t).run.err with
          | some e => simp [Alike]
          | none =>
            simp only
            refine ⟨by simp [f1], f2, fun h => by simp [f3 h]⟩
        · subst h1; subst h2
          first | simp [hY, Alike] | simp [hX, Alike]

end Feat.Callbacks
