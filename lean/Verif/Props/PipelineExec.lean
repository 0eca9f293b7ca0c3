import Verif.Model.Pipeline
import Verif.Spec.Pipeline
/-
C14 pipeline execution.
-/
namespace Feat
variable {T I O V : Type}

theorem Xf.execAll_append (X : Xf T I O) (t : T) (xs ys : List I) :
    X.execAll t (xs ++ ys) = match X.execAll t xs with
      | ⟨outs, some e, t'⟩ => ⟨outs, some e, t'⟩
      | ⟨outs, none, t'⟩ =>
        match X.execAll t' ys with
        | ⟨outs', e, t''⟩ => ⟨outs ++ outs', e, t''⟩ := by
  induction xs generalizing t with
  | nil => simp [Xf.execAll]
  | cons x xs ih =>
    rw [List.cons_append, Xf.execAll, Xf.execAll]
    rcases X.exec t x with ⟨o, _ | e, t'⟩
    · simp only [ih]
      rcases X.execAll t' xs with ⟨o', _ | e, t''⟩
      · simp only
        rcases X.execAll t'' ys with ⟨o'', e, t3⟩
        simp
      · rfl
    · rfl

/-- Feed a stream to a transformer. -/
private def feedStream (X : Xf T V V) (t : T) (s : Stream V) : Run T V :=
  match X.execAll t s.items with
  | ⟨outs, some e, t'⟩ => ⟨outs, some e, t'⟩
  | ⟨outs, none, t'⟩ =>
    match s.fail with
    | some e => ⟨outs, some e, t'⟩
    | none =>
      match X.flush t' with
      | ⟨outs', e, t''⟩ => ⟨outs ++ outs', e, t''⟩

private theorem execAll_none (X : Xf T V V) (n : Nat) (ts : List (Option T)) (xs : List V) :
    (Chain.xf X (n + 1)).execAll (none :: ts) xs =
      match (Chain.xf X n).execAll ts xs with
      | ⟨outs, e, ts'⟩ => ⟨outs, e, none :: ts'⟩ := by
  induction xs generalizing ts with
  | nil => simp [Xf.execAll]
  | cons x xs ih =>
    simp only [Xf.execAll]
    have h1 : (Chain.xf X (n + 1)).exec (none :: ts) x =
      match (Chain.xf X n).exec ts x with
      | ⟨outs, e, ts'⟩ => ⟨outs, e, none :: ts'⟩ := rfl
    rw [h1]
    rcases (Chain.xf X n).exec ts x with ⟨o, _ | e, t'⟩
    · simp only [ih]
    · rfl

/-- Executing the chain on `xs` is executing the first transformer on `xs` and the rest on its outputs. -/
private theorem execAll_some (X : Xf T V V) (n : Nat) (t : T) (ts : List (Option T)) (xs : List V) :
    let r := (Chain.xf X (n + 1)).execAll (some t :: ts) xs
    let a := X.execAll t xs
    let b := (Chain.xf X n).execAll ts a.outs
    r.outs = b.outs ∧ r.err = (match b.err with | some e => some e | none => a.err) ∧
    (r.err = none → r.next = some a.next :: b.next) := by
  induction xs generalizing t ts with
  | nil => simp [Xf.execAll]
  | cons x xs ih =>
    have h1 : (Chain.xf X (n + 1)).exec (some t :: ts) x =
          match X.exec t x with
          | ⟨outs, err, t'⟩ =>
            match (Chain.xf X n).execAll ts outs with
            | ⟨outs', some e, ts'⟩ => ⟨outs', some e, some t' :: ts'⟩
            | ⟨outs', none, ts'⟩ => ⟨outs', err, some t' :: ts'⟩ := rfl
    rcases hx : X.exec t x with ⟨o, ex, t'⟩
    rcases hb : (Chain.xf X n).execAll ts o with ⟨o', eb, ts'⟩
    rw [hx] at h1
    simp only [hb] at h1
    cases ex with
    | none =>
      cases eb with
      | none =>
        simp only [Xf.execAll, h1, hx, Xf.execAll_append, hb]
        have ih' := ih t' ts'
        simp only at ih'
        rcases hA : X.execAll t' xs with ⟨oa, ea, ta⟩
        rw [hA] at ih'
        simp only at ih'
        rcases hB : (Chain.xf X n).execAll ts' oa with ⟨ob, eb, tb⟩
        rw [hB] at ih'
        simp only at ih' ⊢
        refine ⟨by rw [ih'.1], ih'.2.1, ih'.2.2⟩
      | some e =>
        simp only [Xf.execAll, h1, hx, Xf.execAll_append, hb]
        simp
    | some e =>
      cases eb <;> simp [Xf.execAll, h1, hx, hb]

private theorem feedStream_stagewise (X : Xf T V V) (ts : List (Option T)) (s : Stream V) :
    let r := feedStream (Chain.xf X ts.length) ts s
    r.outs = (stagewise X ts s).1.items ∧ r.err = (stagewise X ts s).1.fail ∧
    (r.err = none → r.next = (stagewise X ts s).2) := by
  induction ts generalizing s with
  | nil =>
    obtain ⟨items, fail⟩ := s
    have h : ∀ xs : List V, (Chain.xf X 0).execAll [] xs = ⟨xs, none, []⟩ := by
      intro xs
      induction xs with
      | nil => rfl
      | cons x xs ih =>
        have h0 : (Chain.xf X 0).exec [] x = ⟨[x], none, []⟩ := rfl
        simp only [Xf.execAll, h0, ih, List.singleton_append]
    simp only [feedStream, stagewise, List.length_nil, h]
    cases fail <;> simp [Chain.xf, noFlush]
  | cons a ts ih =>
    obtain ⟨items, fail⟩ := s
    cases a with
    | none =>
      have ih' := ih ⟨items, fail⟩
      rcases hA : (Chain.xf X ts.length).execAll ts items with ⟨o, eo, ts'⟩
      have hB : (Chain.xf X (ts.length + 1)).execAll (none :: ts) items = ⟨o, eo, none :: ts'⟩ := by
        rw [execAll_none, hA]
      simp only [feedStream, List.length_cons, hA, hB, stagewise] at ih' ⊢
      cases eo with
      | none =>
        cases fail with
        | none =>
          have h1 : (Chain.xf X (ts.length + 1)).flush (none :: ts') =
            match (Chain.xf X ts.length).flush ts' with
            | ⟨outs, e, ts'⟩ => ⟨outs, e, none :: ts'⟩ := rfl
          rcases hF : (Chain.xf X ts.length).flush ts' with ⟨o', e', ts''⟩
          rw [hF] at h1
          simp only [h1, hF] at ih' ⊢
          exact ⟨ih'.1, ih'.2.1, fun h => by rw [ih'.2.2 h]⟩
        | some e =>
          simp only at ih' ⊢
          exact ⟨ih'.1, ih'.2.1, fun h => by cases h⟩
      | some e =>
        simp only at ih' ⊢
        exact ⟨ih'.1, ih'.2.1, fun h => by cases h⟩
    | some t =>
      have hs := execAll_some X ts.length t ts items
      simp only at hs
      simp only [feedStream, List.length_cons, stagewise]
      rcases hA : X.execAll t items with ⟨oa, ea, ta⟩
      rw [hA] at hs
      simp only at hs
      rcases hB : (Chain.xf X ts.length).execAll ts oa with ⟨ob, eb, tb⟩
      rw [hB] at hs
      simp only at hs
      rcases hR : (Chain.xf X (ts.length + 1)).execAll (some t :: ts) items with ⟨or, er, tr⟩
      rw [hR] at hs
      simp only at hs
      obtain ⟨rfl, rfl, h3⟩ := hs
      cases ea with
      | some e =>
        have ih' := ih ⟨oa, some e⟩
        have hp : X.pass t ⟨items, fail⟩ = (⟨oa, some e⟩, ta) := by simp only [Xf.pass, hA]
        simp only [feedStream, hB] at ih'
        rw [hp]
        cases eb <;> simp at ih' ⊢ <;> exact ih'
      | none =>
        cases fail with
        | some e' =>
          have hp : X.pass t ⟨items, some e'⟩ = (⟨oa, some e'⟩, ta) := by simp only [Xf.pass, hA]
          have ih' := ih ⟨oa, some e'⟩
          simp only [feedStream, hB] at ih'
          rw [hp]
          cases eb <;> simp at ih' ⊢ <;> exact ih'
        | none =>
          rcases hF : X.flush ta with ⟨of, ef, tf⟩
          have hp : X.pass t ⟨items, none⟩ = (⟨oa ++ of, ef⟩, tf) := by
            simp only [Xf.pass, hA, hF]
          rw [hp]
          have ih' := ih ⟨oa ++ of, ef⟩
          cases eb with
          | some e =>
            simp only [feedStream, Xf.execAll_append, hB] at ih'
            simp at ih' ⊢
            exact ih'
          | none =>
            have h3' := h3 rfl
            subst h3'
            have h1 : (Chain.xf X (ts.length + 1)).flush (some ta :: tb) =
              match X.flush ta with
              | ⟨outs, err, t'⟩ =>
                match (Chain.xf X ts.length).execAll tb outs with
                | ⟨outs', some e, ts'⟩ => ⟨outs', some e, some t' :: ts'⟩
                | ⟨outs', none, ts'⟩ =>
                  match err with
                  | some e => ⟨outs', some e, some t' :: ts'⟩
                  | none =>
                    match (Chain.xf X ts.length).flush ts' with
                    | ⟨outs'', e, ts''⟩ => ⟨outs' ++ outs'', e, some t' :: ts''⟩ := rfl
            rcases hC : (Chain.xf X ts.length).execAll tb of with ⟨oc, ec, tc⟩
            simp only [feedStream, Xf.execAll_append, hB, hC] at ih'
            rw [hF] at h1
            simp only [hC] at h1
            cases ec with
            | none =>
              cases ef with
              | some e =>
                simp only at h1
                simp only [h1]
                simp at ih' ⊢
                exact ih'
              | none =>
                rcases hD : (Chain.xf X ts.length).flush tc with ⟨od, ed, td⟩
                simp only [hD] at ih' h1
                simp only [h1]
                refine ⟨?_, ih'.2.1, fun h => by rw [ih'.2.2 h]⟩
                rw [← ih'.1, List.append_assoc]
            | some e =>
              simp only at h1
              simp only [h1]
              simp at ih' ⊢
              exact ih'

/-- **C14** Executing a pipeline of any length on any input sequence and then flushing it gives exactly the
outputs (in order) and the exception, if any, of running the whole sequence stage by stage; if there is no
exception, every stage is also left in the same state. -/
theorem C14_composition (X : Xf T V V) (stages : List (Option T)) (xs : List V) :
    let r := (Chain.xf X stages.length).runAll stages xs
    let s := stagewise X stages ⟨xs, none⟩
    r.outs = s.1.items ∧ r.err = s.1.fail ∧ (r.err = none → r.next = s.2) := by
  have h := feedStream_stagewise X stages ⟨xs, none⟩
  have e : feedStream (Chain.xf X stages.length) stages ⟨xs, none⟩
      = (Chain.xf X stages.length).runAll stages xs := by
    unfold feedStream Xf.runAll
    rfl
  rw [e] at h
  exact h

/-! Non-vacuity: a stage that emits every value twice, one that delays by one and releases on flush. -/

/-- State: `none` = duplicate every value; `some buffer` = hold back one value until the next or flush. -/
def demoXf : Xf (Option (List Nat)) Nat Nat where
  exec
    | none, x => ⟨[x, x], none, none⟩
    | some buf, x => ⟨buf, none, some [x]⟩
  flush
    | none => ⟨[], none, none⟩
    | some buf => ⟨buf, none, some []⟩

example : ((Chain.xf demoXf 3).runAll [some (some []), none, some none] [1, 2, 3]).outs
    = [1, 1, 2, 2, 3, 3] ∧
    ((Chain.xf demoXf 2).runAll [some none, some (some [])] [1, 2]).outs = [1, 1, 2, 2] := by
  decide

end Feat
