import Verif.Props.Callbacks
import Verif.Proofs.Codec
/-
C80 which calls can be repeated after an exception of the callback; C81 which can be skipped.
-/
namespace Feat.Callbacks
variable {T U I M O O' A B V K S C : Type} {n : Nat}

/-! ### What is left of a call -/

theorem Left.trans {p q r : Prog T O} (h : Left p q) (h' : Left q r) : Left p r := by
  induction h with
  | here => exact h'
  | later _ ih => exact .later (ih h')

theorem left_ret {t : T} {q : Prog T O} (h : Left (.ret t) q) : q = .ret t := by cases h; rfl
theorem left_fail {e : Err} {t : T} {q : Prog T O} (h : Left (.fail e t) q) : q = .fail e t := by cases h; rfl

/-- A call that ends with the callback's exception. -/
theorem thrown_left (cb : Callback O) (p : Prog T O) (before : List O) (e : Err)
    (h : (p.runWith cb before).ending = .thrown e) :
    ∃ done o rest, Left p (.call o (p.runWith cb before).state rest) ∧
      (p.runWith cb before).values = before ++ done ++ [o] ∧
      p.run = ⟨done ++ o :: rest.run.outs, rest.run.err, rest.run.next⟩ := by
  induction p generalizing before with
  | ret t => simp [Prog.runWith] at h
  | fail e t => simp [Prog.runWith] at h
  | call o now rest ih =>
    cases hc : cb before o with
    | some e' =>
      simp only [Prog.runWith, hc]
      exact ⟨[], o, rest, .here _, by simp, rfl⟩
    | none =>
      simp only [Prog.runWith, hc] at h ⊢
      obtain ⟨done, o', rest', h1, h2, h3⟩ := ih _ h
      refine ⟨o :: done, o', rest', .later h1, by simp [h2], ?_⟩
      simp [Prog.run, h3]

/-- Every point of a call can be the one at which a callback throws. -/
theorem left_thrown (p : Prog T O) (o : O) (now : T) (rest : Prog T O) (h : Left p (.call o now rest))
    (before : List O) :
    ∃ cb : Callback O, (p.runWith cb before).ending = .thrown .logicError ∧ (p.runWith cb before).state = now := by
  classical
  generalize hq : Prog.call o now rest = q at h
  induction h generalizing before with
  | here =>
    subst hq
    exact ⟨fun _ _ => some .logicError, by simp [Prog.runWith], by simp [Prog.runWith]⟩
  | @later o' now' rest' q' h' ih =>
    obtain ⟨cb, h1, h2⟩ := ih (before ++ [o']) hq
    refine ⟨fun b x => if b = before then none else cb b x, ?_⟩
    have key : ∀ (p : Prog T O) (b : List O), before.length < b.length →
        p.runWith (fun b x => if b = before then none else cb b x) b = p.runWith cb b := by
      intro p
      induction p with
      | ret t => intro b _; rfl
      | fail e t => intro b _; rfl
      | call x n r ih =>
        intro b hb
        have hne : b ≠ before := by rintro rfl; omega
        simp only [Prog.runWith, hne, if_false]
        cases cb b x with
        | some e => rfl
        | none => simp only; exact ih _ (by simp; omega)
    simp only [Prog.runWith, if_true]
    rw [key _ _ (by simp)]
    exact ⟨h1, h2⟩

theorem skippable_iff (op : T → Prog T O) :
    Skippable op ↔ ∀ t o now rest, Left (op t) (.call o now rest) → now = (op t).run.next := by
  constructor
  · intro h t o now rest hl
    obtain ⟨cb, h1, h2⟩ := left_thrown _ _ _ _ hl []
    rw [← h t cb _ h1, h2]
  · intro h t cb e he
    obtain ⟨_, _, _, hl, _, _⟩ := thrown_left cb _ _ _ he
    exact h _ _ _ _ hl

theorem left_map {s : T → U} {f : O → O'} {p : Prog T O} {o now rest}
    (h : Left (p.map s f) (.call o now rest)) :
    ∃ o0 n0 r0, Left p (.call o0 n0 r0) ∧ o = f o0 ∧ now = s n0 ∧ rest = r0.map s f := by
  induction p with
  | ret t => cases h
  | fail e t => cases h
  | call x n r ih =>
    cases h with
    | here => exact ⟨x, n, r, .here _, rfl, rfl, rfl⟩
    | later h =>
      obtain ⟨a, b, c, h1, h2⟩ := ih h
      exact ⟨a, b, c, .later h1, h2⟩

theorem left_map_ret {s : T → U} {f : O → O'} {p : Prog T O} {t}
    (h : Left (p.map s f) (.ret t)) : ∃ t0, Left p (.ret t0) ∧ t = s t0 := by
  induction p with
  | ret t' =>
    have := left_ret h
    simp at this
    exact ⟨t', .here _, this⟩
  | fail e t => cases h
  | call x n r ih =>
    cases h with
    | later h =>
      obtain ⟨a, h1, h2⟩ := ih h
      exact ⟨a, .later h1, h2⟩

theorem left_bind {p : Prog T O} {k : T → Prog T O} {o now rest}
    (h : Left (p.bind k) (.call o now rest)) :
    (∃ r, Left p (.call o now r) ∧ rest = r.bind k) ∨ (∃ t, Left p (.ret t) ∧ Left (k t) (.call o now rest)) := by
  induction p with
  | ret t => exact .inr ⟨t, .here _, h⟩
  | fail e t => cases h
  | call x n r ih =>
    cases h with
    | here => exact .inl ⟨r, .here _, rfl⟩
    | later h =>
      rcases ih h with ⟨r', h1, h2⟩ | ⟨t, h1, h2⟩
      · exact .inl ⟨r', .later h1, h2⟩
      · exact .inr ⟨t, .later h1, h2⟩

theorem left_bind_ret {p : Prog T O} {k : T → Prog T O} {t'}
    (h : Left (p.bind k) (.ret t')) : ∃ t, Left p (.ret t) ∧ Left (k t) (.ret t') := by
  induction p with
  | ret t => exact ⟨t, .here _, h⟩
  | fail e t => cases h
  | call x n r ih =>
    cases h with
    | later h =>
      obtain ⟨t, h1, h2⟩ := ih h
      exact ⟨t, .later h1, h2⟩

theorem left_inside {now : T} {p : Prog U O} {k : U → Prog (T × U) O} {c : Prog (T × U) O}
    (h : Left (p.inside now k) c) :
    (∃ o u r, Left p (.call o u r) ∧ c = .call o (now, u) (r.inside now k)) ∨
    (∃ e u, c = .fail e (now, u)) ∨ (∃ u, Left p (.ret u) ∧ Left (k u) c) := by
  induction p with
  | ret t => exact .inr (.inr ⟨t, .here _, h⟩)
  | fail e t =>
    have := left_fail h
    exact .inr (.inl ⟨e, t, this⟩)
  | call x n r ih =>
    cases h with
    | here => exact .inl ⟨x, n, r, .here _, rfl⟩
    | later h =>
      rcases ih h with ⟨o, u, r', h1, h2⟩ | h1 | ⟨t, h1, h2⟩
      · exact .inl ⟨o, u, r', .later h1, h2⟩
      · exact .inr (.inl h1)
      · exact .inr (.inr ⟨t, .later h1, h2⟩)

theorem left_through {q : U → M → Prog U O} {p : Prog T M} {u0 : U} {o s rest}
    (h : Left (p.through q u0) (.call o s rest)) :
    ∃ m r u r', Left p (.call m s.1 r) ∧ Left (q u m) (.call o s.2 r') ∧
      rest = r'.inside s.1 (fun u' => r.through q u') := by
  induction p generalizing u0 with
  | ret t => cases h
  | fail e t => cases h
  | call m now r ih =>
    rcases left_inside h with ⟨o', u, r', h1, h2⟩ | ⟨e, u, h1⟩ | ⟨u, _, h2⟩
    · simp only [Prog.call.injEq] at h2
      obtain ⟨rfl, rfl, rfl⟩ := h2
      exact ⟨m, r, u0, r', .here _, h1, rfl⟩
    · simp at h1
    · obtain ⟨m', r1, u1, r2, h3, h4⟩ := ih h2
      exact ⟨m', r1, u1, r2, .later h3, h4⟩

theorem left_through_ret {q : U → M → Prog U O} {p : Prog T M} {u0 : U} {s}
    (h : Left (p.through q u0) (.ret s)) : Left p (.ret s.1) := by
  induction p generalizing u0 with
  | ret t =>
    have := left_ret h
    simp at this
    subst this; exact .here _
  | fail e t => cases h
  | call m now r ih =>
    rcases left_inside h with ⟨o', u, r', h1, h2⟩ | ⟨e, u, h1⟩ | ⟨u, _, h2⟩
    · simp at h2
    · simp at h1
    · exact .later (ih h2)

theorem left_emit {now : T} {os : List O} {p : Prog T O} {o n rest}
    (h : Left (Prog.emit now os p) (.call o n rest)) : n = now ∨ Left p (.call o n rest) := by
  induction os with
  | nil => exact .inr h
  | cons x xs ih =>
    cases h with
    | here => exact .inl rfl
    | later h => exact ih h

theorem left_committed {r : Run T O} {o n rest} (h : Left (Prog.committed r) (.call o n rest)) : n = r.next := by
  rcases left_emit h with h | h
  · exact h
  · rcases he : r.err with _ | e <;> rw [he] at h <;> cases h

/-! ### C80: general facts -/

/-- A resumable call is repeatable. -/
theorem C80_resumable {op : T → Prog T O} (h : Resumable op) : Repeatable op := by
  intro t cb e he
  obtain ⟨done, o, rest, hl, hv, hr⟩ := thrown_left cb _ _ _ he
  rw [h _ _ _ _ hl, hv, hr]
  simp [Prog.run]

/-- Repeating a repeatable call until no callback throws any more delivers exactly the values of the undisturbed call,
whatever the callbacks do, and ends like it. -/
theorem C80_attempts {op : T → Prog T O} (h : Repeatable op) (cbs : List (Callback O)) (t : T)
    (hend : ∀ e, (attempts op cbs t).ending ≠ .thrown e) :
    (attempts op cbs t).values = (op t).run.outs ∧ (attempts op cbs t).ending = Ends (op t).run.err ∧
      (attempts op cbs t).state = (op t).run.next := by
  induction cbs generalizing t with
  | nil => exact absurd rfl (hend .runtimeError)
  | cons cb cbs ih =>
    rcases hs : (op t).runWith cb [] with ⟨values, ending, t'⟩
    have hseen := C79_seen (op t) cb
    cases ending with
    | thrown e =>
      have hth : ((op t).runWith cb []).ending = .thrown e := by rw [hs]
      have hrep := h t cb e hth
      obtain ⟨done, o, rest, _, hv, hr⟩ := thrown_left cb _ _ _ hth
      simp only [hs] at hrep hv
      simp only [attempts, hs] at hend ⊢
      obtain ⟨i1, i2, i3⟩ := ih t' hend
      rw [i1, i2, i3, hrep]
      refine ⟨?_, rfl, rfl⟩
      simp only [hv, hr]
      simp
    | returned =>
      rcases hseen.2 with ⟨e, h1, _⟩ | ⟨_, h1, h2, h3⟩
      · rw [hs] at h1; simp at h1
      · rw [hs] at h1 h2 h3
        simp only [attempts, hs]
        exact ⟨h1, h2, h3⟩
    | failed e =>
      rcases hseen.2 with ⟨e, h1, _⟩ | ⟨_, h1, h2, h3⟩
      · rw [hs] at h1; simp at h1
      · rw [hs] at h1 h2 h3
        simp only [attempts, hs]
        exact ⟨h1, h2, h3⟩

/-! ### C80: calls that can be repeated -/

theorem C80_stateless (f : T → I → Except Err O) (x : I) : Resumable (fun t => (PXf.ofFun f).exec t x) := by
  intro t o now rest h
  simp only [PXf.ofFun] at h ⊢
  cases hf : f t x with
  | error e => simp only [hf] at h; cases h
  | ok v =>
    simp only [hf] at h
    cases h with
    | here => simp only [hf]
    | later h => cases h

theorem C80_forward_fill (x : Option A) : Resumable (fun t => PXf.forwardFill.exec t x) := by
  intro t o now rest h
  rcases t with ⟨d, _ | l⟩ <;> rcases x with _ | v <;> simp only [PXf.forwardFill] at h ⊢
  · cases h
  all_goals
    cases h with
    | here => rfl
    | later h => cases h

theorem C80_backward_fill_flush : Resumable (PXf.backwardFill (A := A)).flush := by
  intro t o now rest h
  have key : ∀ d v n, Left (PXf.backwardFlush (some d) v n) (.call o now rest) →
      ∃ m, now = ⟨some d, m + 1⟩ ∧ PXf.backwardFlush (some d) v (m + 1) = .call o now rest := by
    intro d v n
    induction n with
    | zero => intro h; cases h
    | succ n ih =>
      intro h
      cases h with
      | here => exact ⟨n, rfl, rfl⟩
      | later h => exact ih h
  rcases t with ⟨_ | d, p⟩
  · by_cases hp : p = 0
    · simp only [PXf.backwardFill, hp] at h; cases h
    · simp only [PXf.backwardFill, ne_eq, hp, not_false_eq_true, if_true] at h; cases h
  · by_cases hp : p = 0
    · simp only [PXf.backwardFill, hp] at h; cases h
    · simp only [PXf.backwardFill, ne_eq, hp, not_false_eq_true, if_true] at h
      obtain ⟨m, h1, h2⟩ := key _ _ _ h
      subst h1
      simpa [PXf.backwardFill] using h2

/-- Filters of repeatable transformers. -/
theorem C80_filter (idxs : List (Fin n)) (W : PXf T (Cells C) (Cells C))
    (hW : ∀ x, Resumable (fun t => W.exec t x)) (row : Vector C n) :
    Resumable (fun t => (PXf.filter idxs W).exec t row) := by
  intro t o now rest h
  obtain ⟨o0, n0, r0, h1, rfl, rfl, rfl⟩ := left_map h
  have := hW _ t _ _ _ h1
  simp only at this
  simp only [PXf.filter, id, this]
  rfl

/-- Once a flush has returned, another flush does nothing. -/
def FlushedOnce (P : PXf T I O) : Prop := ∀ t t', Left (P.flush t) (.ret t') → P.flush t' = .ret t'

theorem C80_forward_fill_flushed : FlushedOnce (PXf.forwardFill (A := A)) := by
  intro t t' h
  simp only [PXf.forwardFill] at h ⊢

theorem C80_stateless_flushed (f : T → I → Except Err O) : FlushedOnce (PXf.ofFun f) := by
  intro t t' h
  simp only [PXf.ofFun] at h ⊢

theorem C80_backward_fill_flushed : FlushedOnce (PXf.backwardFill (A := A)) := by
  intro t t' h
  have key : ∀ d v n, Left (PXf.backwardFlush (A := A) d v n) (.ret t') → t' = ⟨d, 0⟩ := by
    intro d v n
    induction n with
    | zero => intro h; have := left_ret h; simpa using this
    | succ n ih => intro h; cases h with | later h => exact ih h
  rcases t with ⟨_ | d, p⟩
  · by_cases hp : p = 0
    · simp only [PXf.backwardFill, hp] at h
      have := left_ret h
      simp at this
      subst this; rfl
    · simp only [PXf.backwardFill, ne_eq, hp, not_false_eq_true, if_true] at h; cases h
  · by_cases hp : p = 0
    · simp only [PXf.backwardFill, hp] at h
      have := left_ret h
      simp at this
      subst this; rfl
    · simp only [PXf.backwardFill, ne_eq, hp, not_false_eq_true, if_true] at h
      rw [key _ _ _ h]
      rfl

/-- Two transformers in a pipeline: `execute`. -/
theorem C80_pipe (P : PXf T I M) (Q : PXf U M O) (hP : ∀ x, Resumable (fun t => P.exec t x))
    (hQ : ∀ x, Resumable (fun t => Q.exec t x)) (x : I) : Resumable (fun s => (P.pipe Q).exec s x) := by
  intro s o now rest h
  obtain ⟨m, r, u, r', h1, h2, rfl⟩ := left_through h
  have e1 := hP x _ _ _ _ h1
  have e2 := hQ m _ _ _ _ h2
  simp only at e1 e2
  simp only [PXf.pipe, e1, Prog.through, e2, Prog.inside]

/-- Two transformers in a pipeline: `flush`. -/
theorem C80_pipe_flush (P : PXf T I M) (Q : PXf U M O) (hP : Resumable P.flush)
    (hQ : ∀ x, Resumable (fun t => Q.exec t x)) (hQ' : Resumable Q.flush) (hd : FlushedOnce P) :
    Resumable (P.pipe Q).flush := by
  intro s o now rest h
  rcases left_bind h with ⟨r0, h1, rfl⟩ | ⟨s', h1, h2⟩
  · obtain ⟨m, r, u, r', h3, h2, rfl⟩ := left_through h1
    have e1 := hP _ _ _ _ h3
    have e2 := hQ m _ _ _ _ h2
    simp only at e2
    simp only [PXf.pipe, e1, Prog.through, e2, Prog.inside, Prog.bind]
  · have e1 := hd _ _ (left_through_ret h1)
    obtain ⟨o0, n0, r0, h3, rfl, rfl, rfl⟩ := left_map h2
    have e2 := hQ' _ _ _ _ h3
    simp only [PXf.pipe, e1, Prog.through, Prog.bind, e2, Prog.map, id]

theorem pipe_flushed (P : PXf T I M) (Q : PXf U M O) (hP : FlushedOnce P) (hQ : FlushedOnce Q) :
    FlushedOnce (P.pipe Q) := by
  intro s s' h
  obtain ⟨s1, h1, h2⟩ := left_bind_ret h
  obtain ⟨u, h3, rfl⟩ := left_map_ret h2
  have e1 := hP _ _ (left_through_ret h1)
  have e2 := hQ _ _ h3
  simp only [PXf.pipe, e1, Prog.through, Prog.bind, e2, Prog.map, id]

/-- Pipelines of any length. -/
theorem C80_pipeline (P : PXf T V V) (hP : ∀ x, Resumable (fun t => P.exec t x)) (hF : Resumable P.flush)
    (hd : FlushedOnce P) (n : Nat) :
    (∀ x, Resumable (fun ts => (PXf.chain P n).exec ts x)) ∧ Resumable (PXf.chain P n).flush := by
  suffices h : ((∀ x, Resumable (fun ts => (PXf.chain P n).exec ts x)) ∧ Resumable (PXf.chain P n).flush) ∧
      FlushedOnce (PXf.chain P n) from h.1
  induction n with
  | zero =>
    refine ⟨⟨?_, ?_⟩, ?_⟩
    · intro x ts o now rest h
      cases h with
      | here => rfl
      | later h => cases h
    · intro ts o now rest h; cases h
    · intro ts ts' h; rfl
  | succ n ih =>
    obtain ⟨⟨ihe, ihf⟩, ihd⟩ := ih
    refine ⟨⟨?_, ?_⟩, ?_⟩
    · intro x ts o now rest h
      rcases ts with _ | ⟨_ | t, ts⟩
      · cases h
      · obtain ⟨o0, n0, r0, h1, rfl, rfl, rfl⟩ := left_map h
        have := ihe x _ _ _ _ h1
        simp only at this
        simp only [PXf.chain, this, Prog.map, id]
      · obtain ⟨o0, n0, r0, h1, rfl, rfl, rfl⟩ := left_map h
        have := C80_pipe P _ hP ihe x _ _ _ _ h1
        simp only at this
        simp only [PXf.chain, Prod.mk.eta, this, Prog.map, id]
    · intro ts o now rest h
      rcases ts with _ | ⟨_ | t, ts⟩
      · cases h
      · obtain ⟨o0, n0, r0, h1, rfl, rfl, rfl⟩ := left_map h
        have := ihf _ _ _ _ h1
        simp only [PXf.chain, this, Prog.map, id]
      · obtain ⟨o0, n0, r0, h1, rfl, rfl, rfl⟩ := left_map h
        have := C80_pipe_flush P _ hF ihe ihf hd _ _ _ _ h1
        simp only [PXf.chain, Prod.mk.eta, this, Prog.map, id]
    · intro ts ts' h
      rcases ts with _ | ⟨_ | t, ts⟩
      · cases h
      · obtain ⟨u, h3, rfl⟩ := left_map_ret h
        have := ihd _ _ h3
        simp only [PXf.chain, this, Prog.map, id]
      · obtain ⟨u, h3, rfl⟩ := left_map_ret h
        have := pipe_flushed P _ hd ihd _ _ h3
        simp only [PXf.chain, Prod.mk.eta, this, Prog.map, id]

/-! Grains. -/

theorem setSorted_twice [LinearOrder K] (k : K) (v w : T) (l : List (K × T)) :
    setSorted k w (setSorted k v l) = setSorted k w l := by
  induction l with
  | nil => simp [setSorted]
  | cons e rest ih =>
    obtain ⟨k', v'⟩ := e
    by_cases h1 : k < k'
    · simp [setSorted, h1]
    · by_cases h2 : k = k'
      · subst h2; simp [setSorted]
      · simp [setSorted, h1, h2, ih]

theorem OMap.set_twice [LinearOrder K] (m : OMap K T) (k : K) (v w : T) : (m.set k v).set k w = m.set k w :=
  OMap.ext' (setSorted_twice k v w m.entries)

theorem setSorted_at [LinearOrder K] (k : K) (v w : T) (a b : List (K × T))
    (h : (a ++ (k, v) :: b).Pairwise (fun x y => x.1 < y.1)) :
    setSorted k w (a ++ (k, v) :: b) = a ++ (k, w) :: b := by
  induction a with
  | nil => simp [setSorted]
  | cons e a ih =>
    obtain ⟨k', v'⟩ := e
    rw [List.cons_append, List.pairwise_cons] at h
    have hlt : k' < k := h.1 (k, v) (by simp)
    have := ih h.2
    simp [setSorted, not_lt.2 hlt.le, hlt.ne', this]

theorem OMap.set_at [LinearOrder K] (m : OMap K T) (k : K) (v w : T) (a b : List (K × T))
    (h : m.entries = a ++ (k, v) :: b) : (m.set k w).entries = a ++ (k, w) :: b := by
  have hs := m.sorted
  rw [h] at hs
  simp only [OMap.set, h]
  exact setSorted_at k v w a b hs

theorem OMap.set_same [LinearOrder K] (m : OMap K T) (k : K) (v : T) (a b : List (K × T))
    (h : m.entries = a ++ (k, v) :: b) : m.set k v = m :=
  OMap.ext' (by rw [OMap.set_at m k v v a b h, h])

/-- `execute` on grains: also when the grain is new, its transformer is kept. -/
theorem C80_grain [LinearOrder K] (P : PXf T I O) (hP : ∀ x, Resumable (fun t => P.exec t x)) (x : K × I) :
    Resumable (fun g => (PXf.grain P).exec g x) := by
  intro g o now rest h
  simp only [PXf.grain] at h ⊢
  cases ht : g.transformer x.1 with
  | error e => simp only [ht] at h; cases h
  | ok t =>
    simp only [ht] at h
    obtain ⟨o0, n0, r0, h1, rfl, rfl, rfl⟩ := left_map h
    have e1 := hP _ _ _ _ _ h1
    simp only at e1
    have e2 : GrainTransformer.transformer { g with transformers := g.transformers.set x.1 n0 } x.1 = .ok n0 := by
      simp [GrainTransformer.transformer, OMap.find?_set_self]
    simp only [e2, e1, Prog.map, OMap.set_twice]

/-- Grains that are flushed already add nothing. -/
theorem flushGrains_done [LinearOrder K] (P : PXf T I O) (m : OMap K T) (a b l : List (K × T))
    (hm : m.entries = b ++ a ++ l) (ha : ∀ e ∈ a, P.flush e.2 = .ret e.2) :
    PXf.flushGrains P (a ++ l) m = PXf.flushGrains P l m := by
  induction a generalizing b with
  | nil => rfl
  | cons e a ih =>
    obtain ⟨k, t⟩ := e
    have h1 : P.flush t = .ret t := ha (k, t) (by simp)
    simp only [List.cons_append, PXf.flushGrains, h1, Prog.map, Prog.bind]
    rw [OMap.set_same m k t b (a ++ l) (by simp [hm])]
    exact ih (b ++ [(k, t)]) (by simp [hm]) (fun e he => ha e (by simp [he]))

theorem flushGrains_resume [LinearOrder K] (P : PXf T I O) (hP : Resumable P.flush) (hd : FlushedOnce P)
    (l a : List (K × T)) (m : OMap K T) (hm : m.entries = a ++ l) (ha : ∀ e ∈ a, P.flush e.2 = .ret e.2)
    (o : K × O) (m' : OMap K T) (rest : Prog (OMap K T) (K × O))
    (h : Left (PXf.flushGrains P l m) (.call o m' rest)) :
    PXf.flushGrains P m'.entries m' = .call o m' rest := by
  induction l generalizing a m with
  | nil => cases h
  | cons e l ih =>
    obtain ⟨k, t⟩ := e
    rcases left_bind h with ⟨r, h1, rfl⟩ | ⟨m1, h1, h2⟩
    · obtain ⟨o0, n0, r0, h3, rfl, rfl, rfl⟩ := left_map h1
      have hn := hP _ _ _ _ h3
      have he := OMap.set_at m k t n0 a l hm
      rw [he, flushGrains_done P _ a [] ((k, n0) :: l) (by simp [he]) ha]
      simp only [PXf.flushGrains, hn, Prog.map, Prog.bind, OMap.set_twice]
    · obtain ⟨t1, h3, rfl⟩ := left_map_ret h1
      have hn := hd _ _ h3
      have he := OMap.set_at m k t t1 a l hm
      refine ih (a ++ [(k, t1)]) (m.set k t1) (by simp [he]) ?_ h2
      intro e hmem
      rcases List.mem_append.1 hmem with hmem | hmem
      · exact ha e hmem
      · simp only [List.mem_singleton] at hmem
        subst hmem; exact hn

/-- `flush` on grains. -/
theorem C80_grain_flush [LinearOrder K] (P : PXf T I O) (hP : Resumable P.flush) (hd : FlushedOnce P) :
    Resumable (PXf.grain (K := K) P).flush := by
  intro g o now rest h
  obtain ⟨o0, m0, r0, h1, rfl, rfl, rfl⟩ := left_map h
  have := flushGrains_resume P hP hd g.transformers.entries [] g.transformers rfl (by simp) _ _ _ h1
  simp only [PXf.grain, this, Prog.map, id]

/-- The hypotheses are met: two grains with backward fills, interrupted at the third of three pending values. -/
example : ∃ (cb : Callback (Nat × Nat)),
    (((PXf.grain (K := Nat) (PXf.backwardFill (A := Nat))).flush
      ⟨true, none, ⟨[(1, ⟨some 5, 2⟩), (2, ⟨some 7, 1⟩)], by simp⟩⟩).runWith cb []).ending = .thrown .logicError ∧
    (((PXf.grain (K := Nat) (PXf.backwardFill (A := Nat))).flush
      ⟨true, none, ⟨[(1, ⟨some 5, 2⟩), (2, ⟨some 7, 1⟩)], by simp⟩⟩).runWith cb []).values = [(1, 5), (1, 5), (2, 7)] :=
  ⟨fun before _ => if before.length = 2 then some .logicError else none, by decide, by decide⟩

example [LinearOrder K] : Resumable (PXf.grain (K := K) (PXf.backwardFill (A := A))).flush :=
  C80_grain_flush _ C80_backward_fill_flush C80_backward_fill_flushed

/-- A pipeline that fills forward and then scales, say, can be repeated. -/
example (f : T → A → Except Err O) (x : Option A) :
    Repeatable (fun s => ((PXf.forwardFill (A := A)).pipe (PXf.ofFun f)).exec s x) :=
  C80_resumable (C80_pipe _ _ C80_forward_fill (C80_stateless f) x)

/-! ### C81: calls that can be skipped -/

theorem committed_skippable {op : T → Prog T O} {r : T → Run T O} (h : ∀ t, op t = .committed (r t)) :
    Skippable op := by
  rw [skippable_iff]
  intro t o now rest hl
  rw [h t] at hl ⊢
  rw [left_committed hl, committed_run]

theorem C81_lag_lead (null : A) (conv : B → A) (x : B) : Skippable (fun t => (PXf.lagLead null conv).exec t x) :=
  committed_skippable fun _ => rfl

theorem C81_rolling (agg : List A → Except Err B) (x : A) : Skippable (fun t => (PXf.rolling agg).exec t x) :=
  committed_skippable fun _ => rfl

theorem C81_normalize (k : FloatNorms.NormInput V) (x : List V) : Skippable (fun t => (PXf.normalize k).exec t x) :=
  committed_skippable fun _ => rfl

theorem C81_imputer [LinearOrder K] (c : TsConfig K S) :
    (∀ x, Skippable (fun t => (PXf.tsImputer c).exec t x)) ∧ Skippable (PXf.tsImputer c).flush :=
  ⟨fun _ => committed_skippable fun _ => rfl, committed_skippable fun _ => rfl⟩

theorem C81_pivot (x : List (PivotMatrix A)) : Skippable (fun t => PXf.pivot.exec t x) :=
  committed_skippable fun _ => rfl

theorem C81_stateless (f : T → I → Except Err O) (x : I) : Skippable (fun t => (PXf.ofFun f).exec t x) := by
  rw [skippable_iff]
  intro t o now rest h
  simp only [PXf.ofFun] at h ⊢
  cases hf : f t x with
  | error e => simp only [hf] at h; cases h
  | ok v =>
    simp only [hf] at h
    cases h with
    | here => rfl
    | later h => cases h

theorem C81_filter (idxs : List (Fin n)) (W : PXf T (Cells C) (Cells C))
    (hW : ∀ x, Skippable (fun t => W.exec t x)) (row : Vector C n) :
    Skippable (fun t => (PXf.filter idxs W).exec t row) := by
  rw [skippable_iff]
  intro t o now rest h
  obtain ⟨o0, n0, r0, h1, rfl, rfl, rfl⟩ := left_map h
  have := (skippable_iff _).1 (hW _) t _ _ _ h1
  simp [PXf.filter, this]

theorem C81_grain [LinearOrder K] (P : PXf T I O) (hP : ∀ x, Skippable (fun t => P.exec t x)) (x : K × I) :
    Skippable (fun g => (PXf.grain P).exec g x) := by
  rw [skippable_iff]
  intro g o now rest h
  simp only [PXf.grain] at h ⊢
  cases ht : g.transformer x.1 with
  | error e => simp only [ht] at h; cases h
  | ok t =>
    simp only [ht] at h
    obtain ⟨o0, n0, r0, h1, rfl, rfl, rfl⟩ := left_map h
    have := (skippable_iff _).1 (hP _) t _ _ _ h1
    simp [this]

/-- A pipeline whose first half passes on at most one value per input. -/
theorem C81_pipe (P : PXf T I M) (Q : PXf U M O) (hP : ∀ x, Skippable (fun t => P.exec t x))
    (hQ : ∀ x, Skippable (fun t => Q.exec t x)) (h1 : ∀ t x, (P.exec t x).run.outs.length ≤ 1) (x : I) :
    Skippable (fun s => (P.pipe Q).exec s x) := by
  rw [skippable_iff]
  intro s o now rest h
  simp only [PXf.pipe] at h ⊢
  have hl := h1 s.1 x
  have hp := fun o now rest => (skippable_iff _).1 (hP x) s.1 o now rest
  cases hx : P.exec s.1 x with
  | ret t => rw [hx] at h; cases h
  | fail e t => rw [hx] at h; cases h
  | call m t1 r =>
    rw [hx] at h hl hp
    have hnow : t1 = (Prog.call m t1 r).run.next := hp m t1 r (.here _)
    have hr : r.run.outs = [] := by
      simp only [Prog.run, List.length_cons] at hl
      exact List.eq_nil_of_length_eq_zero (by omega)
    have hend : (∃ t, r = .ret t) ∨ ∃ e t, r = .fail e t := by
      cases r with
      | ret t => exact .inl ⟨t, rfl⟩
      | fail e t => exact .inr ⟨e, t, rfl⟩
      | call a b c => simp [Prog.run] at hr
    have hq := fun o now rest => (skippable_iff _).1 (hQ m) s.2 o now rest
    simp only [Prog.through] at h ⊢
    rw [inside_run]
    have hcalls : ∃ r', Left (Q.exec s.2 m) (.call o now.2 r') ∧ now.1 = t1 := by
      rcases left_inside h with ⟨o', u, r', h3, h4⟩ | ⟨e, u, h3⟩ | ⟨u, _, h3⟩
      · simp only [Prog.call.injEq] at h4
        obtain ⟨rfl, rfl, _⟩ := h4
        exact ⟨r', h3, rfl⟩
      · simp at h3
      · rcases hend with ⟨t, rfl⟩ | ⟨e, t, rfl⟩ <;> cases h3
    obtain ⟨r', hc, hn⟩ := hcalls
    have hu := hq _ _ _ hc
    obtain ⟨n1, n2⟩ := now
    simp only at hn hu
    subst hn; subst hu
    rcases (Q.exec s.2 m).run with ⟨outs, _ | e, u⟩
    · simp only
      rcases hend with ⟨t, rfl⟩ | ⟨e, t, rfl⟩ <;> simp only [Prog.through, Prog.run] at hnow ⊢ <;> rw [hnow]
    · rfl

/-! ### What does not survive -/

/-- A callback that throws at its call number `k` (from 0). -/
def throwsAt (k : Nat) : Callback O := fun before _ => if before.length = k then some .logicError else none

/-- Backward fill's `execute`: the pending values are passed on, but after an exception of the callback they all are
still pending, and the repeated call passes every one of them again. -/
theorem C80_backward_fill_execute (x : Option A) (t : BackwardFill A) (cb : Callback A) (e : Err)
    (h : ((PXf.backwardFill.exec t x).runWith cb []).ending = .thrown e) :
    ((PXf.backwardFill.exec t x).runWith cb []).state = t := by
  obtain ⟨done, o, rest, hl, _⟩ := thrown_left cb _ _ _ h
  rcases x with _ | v
  · simp only [PXf.backwardFill] at hl; cases hl
  · rcases left_emit hl with h1 | h1
    · exact h1
    · cases h1

theorem C80_backward_fill_not_repeatable : ¬ Repeatable (fun t => (PXf.backwardFill (A := Nat)).exec t (some 7)) := by
  intro h
  have := h ⟨none, 2⟩ (throwsAt 2) .logicError (by decide)
  have := congrArg Run.outs this
  revert this
  decide

/-- …nor skippable: the nulls are still pending and the next value is passed for them again. -/
theorem C81_backward_fill_not_skippable : ¬ Skippable (fun t => (PXf.backwardFill (A := Nat)).exec t (some 7)) := by
  intro h
  have := h ⟨none, 2⟩ (throwsAt 2) .logicError (by decide)
  revert this
  decide

/-- Forward fill does not remember a value whose callback threw. -/
theorem C81_forward_fill_not_skippable : ¬ Skippable (fun t => (PXf.forwardFill (A := Nat)).exec t (some 7)) := by
  intro h
  have := h ⟨none, none⟩ (throwsAt 0) .logicError (by decide)
  revert this
  decide

/-- A lag/lead transformer with horizon 1 and deltas -1 and 1, fed 1 and 2 already. -/
def lagLeadFed : LagLead (Option Nat) :=
  match LagLead.new none 1 [-1, 1] with
  | .error _ => ⟨⟨0, 0, [], 0⟩, ⟨0, 0, []⟩⟩
  | .ok t => ((lagLeadXf none some).execAll t [1, 2]).next

/-- Repeating `execute` of a lag/lead operator feeds it the row twice. -/
theorem C80_lag_lead_not_repeatable :
    ¬ Repeatable (fun t => (PXf.lagLead (A := Option Nat) (B := Nat) none some).exec t 3) := by
  intro h
  have := h lagLeadFed (throwsAt 0) .logicError (by decide)
  have := congrArg Run.outs this
  revert this
  decide

/-- An exception during `flush` of a lag/lead operator leaves the old series in its buffer: neither another flush nor
going on with the next series gives the right values. -/
theorem C80_lag_lead_flush :
    ¬ Repeatable (PXf.lagLead (A := Option Nat) (B := Nat) none some).flush ∧
    ¬ Skippable (PXf.lagLead (A := Option Nat) (B := Nat) none some).flush := by
  constructor
  · intro h
    have := h lagLeadFed (throwsAt 0) .logicError (by decide)
    have := congrArg Run.outs this
    revert this
    decide
  · intro h
    have := h lagLeadFed (throwsAt 0) .logicError (by decide)
    revert this
    decide

/-- Forward fill followed by a lag/lead operator: after an exception the row can neither be repeated nor skipped. -/
theorem C80_mixed_pipeline :
    ¬ Repeatable (fun s => ((PXf.forwardFill (A := Nat)).pipe (PXf.lagLead none some)).exec s (some 3)) ∧
    ¬ Skippable (fun s => ((PXf.forwardFill (A := Nat)).pipe (PXf.lagLead none some)).exec s (some 3)) := by
  constructor
  · intro h
    have := h (⟨none, none⟩, lagLeadFed) (throwsAt 0) .logicError (by decide)
    have := congrArg Run.outs this
    revert this
    decide
  · intro h
    have := h (⟨none, none⟩, lagLeadFed) (throwsAt 0) .logicError (by decide)
    revert this
    decide

/-- Repeating `execute` of a rolling window feeds it the row twice. -/
theorem C80_rolling_not_repeatable :
    ¬ Repeatable (fun t => (PXf.rolling (A := Nat) (B := Nat) (fun w => .ok w.sum)).exec t 3) := by
  intro h
  have := h ⟨⟨0, 1, 2, 1, 3⟩, ⟨3, 0, [1, 2]⟩⟩ (throwsAt 0) .logicError (by decide)
  have := congrArg Run.outs this
  revert this
  decide

/-- Repeating `execute` of a normalizer divides the row by the norm of the next row. -/
theorem C80_normalize_not_repeatable (k : FloatNorms.NormInput V) :
    ¬ Repeatable (fun t => (PXf.normalize k).exec t []) := by
  intro h
  have := h ⟨[FloatArith.zero false], 0⟩ (throwsAt 0) .logicError rfl
  have := congrArg (fun r => r.outs.length) this
  exact Nat.zero_ne_one this

/-- Repeating `execute` of a time series imputer does not bring back the rows it had added. -/
theorem C80_imputer_not_repeatable :
    ¬ Repeatable (fun t => (PXf.tsImputer (K := Nat) (S := Nat)
      { frequency := 1, strategy := .forward, types := [], medians := .empty, suppress := true, space := 10 }).exec t
        ⟨3, 0, [some 5]⟩) := by
  intro h
  have := h ⟨⟨[(0, ⟨false, 0, 0, [some 4]⟩)], by simp⟩, .empty⟩ (throwsAt 0) .logicError (by decide)
  have := congrArg (fun r => r.outs.length) this
  revert this
  decide

/-- Repeating `execute` of the pivot passes the earlier columns again. -/
theorem C80_pivot_not_repeatable :
    ¬ Repeatable (fun t => (PXf.pivot (A := Nat)).exec t [⟨2, [[some 1, some 2]], by simp⟩]) := by
  intro h
  have := h () (throwsAt 1) .logicError (by decide)
  have := congrArg (fun r => r.outs.length) this
  revert this
  decide

end Feat.Callbacks
