import Verif.Spec.CApi
import Verif.Props.PointerTable

/-!
# Invariants of the C interface
-/

namespace Feat

namespace CApi

variable {σ ι τ O : Type}

/-- Live handles are not null, point to allocated objects, and no two to the same. -/
structure World.WF (w : World σ τ) : Prop where
  live : ∀ i p, w.table.find? i = some p → i ≠ 0 ∧ ∃ o, w.heap.find? p = some o
  inj : ∀ i j p, w.table.find? i = some p → w.table.find? j = some p → i = j

theorem World.WF.start : (World.start : World σ τ).WF where
  live i p h := by simp [World.start, UMap.find?_empty] at h
  inj i j p h := by simp [World.start, UMap.find?_empty] at h

theorem object_eq_some {w : World σ τ} {h : Nat} {o : Obj σ τ} :
    w.object h = some o ↔ ∃ p, w.table.find? h = some p ∧ w.heap.find? p = some o := by
  unfold World.object
  rw [Option.bind_eq_some_iff]

theorem World.WF.object_zero {w : World σ τ} (hw : w.WF) : w.object 0 = none := by
  rcases h : w.object 0 with _ | o
  · rfl
  · obtain ⟨p, hp, _⟩ := object_eq_some.1 h
    exact absurd rfl (hw.live 0 p hp).1

/-- Changing the object behind a handle. -/
theorem World.WF.put {w : World σ τ} (hw : w.WF) {h p : Nat} (o o' : Obj σ τ)
    (hp : w.table.find? h = some p) (ho : w.heap.find? p = some o) :
    (w.put p o').WF ∧ (∀ j, (w.put p o').object j = if j = h then some o' else w.object j) ∧
    (∀ q, (w.put p o').heap.find? q = none ↔ w.heap.find? q = none) := by
  have hfind : ∀ q, (w.put p o').heap.find? q = if q = p then some o' else w.heap.find? q := by
    intro q
    unfold World.put
    simp only
    rw [UMap.find?_update]
    split_ifs with hq
    · rw [hq, ho]; rfl
    · rfl
  refine ⟨⟨?_, ?_⟩, ?_, ?_⟩
  · intro i q hi
    refine ⟨(hw.live i q hi).1, ?_⟩
    rw [hfind]
    split_ifs
    · exact ⟨_, rfl⟩
    · exact (hw.live i q hi).2
  · exact hw.inj
  · intro j
    unfold World.object
    simp only [hfind]
    by_cases hj : j = h
    · subst hj
      have : (w.put p o').table.find? j = some p := hp
      rw [this]
      simp
    · rw [if_neg hj]
      rcases ht : w.table.find? j with _ | q
      · have : (w.put p o').table.find? j = none := ht
        rw [this]; rfl
      · have e : (w.put p o').table.find? j = some q := ht
        have hqp : ¬ q = p := fun h' => hj (hw.inj j h p (h' ▸ ht) hp)
        rw [e]
        simp [hqp]
  · intro q
    rw [hfind]
    split_ifs with hq
    · subst hq
      simp [ho]
    · rfl

/-- Storing a new object. -/
theorem World.WF.addObject {w : World σ τ} (hw : w.WF) {addr : Nat} {draws : List Nat} (o : Obj σ τ)
    (h0 : addr ≠ 0) (hf : w.heap.find? addr = none) (hd : ∀ d ∈ draws, 1 ≤ d ∧ d < 2 ^ 64) :
    (w.addObject addr draws o = none ∧ ∀ d ∈ draws, w.object d ≠ none) ∨
    ∃ i w', w.addObject addr draws o = some (.ok i, w') ∧ w'.WF ∧ i ≠ 0 ∧ w.object i = none ∧
      (∀ j, w'.object j = if j = i then some o else w.object j) ∧
      (∀ q, q ≠ addr → w'.heap.find? q = w.heap.find? q) ∧
      w'.table.find? i = some addr ∧ (∀ j, j ≠ i → w'.table.find? j = w.table.find? j) := by
  unfold World.addObject PTable.add
  rw [if_neg h0]
  rcases hi : PTable.freeIndex w.table draws with _ | i
  · left
    refine ⟨rfl, ?_⟩
    intro d hd' hn
    have := PTable.freeIndex_none hi d hd'
    rcases ht : w.table.find? d with _ | p
    · exact this ht
    · obtain ⟨_, o', ho'⟩ := hw.live d p ht
      rw [object_eq_some.2 ⟨p, ht, ho'⟩] at hn
      exact absurd hn (by simp)
  · right
    obtain ⟨f1, f2⟩ := PTable.freeIndex_spec hi
    have htab : ∀ j, (w.table.emplace i addr).find? j = if j = i then some addr else w.table.find? j := by
      intro j
      rw [UMap.find?_emplace]
      by_cases hj : j = i
      · subst hj; rw [f2]
      · rcases w.table.find? j with _ | q <;> simp [hj]
    have hheap : ∀ q, (w.heap.emplace addr o).find? q = if q = addr then some o else w.heap.find? q := by
      intro q
      rw [UMap.find?_emplace]
      by_cases hq : q = addr
      · subst hq; rw [hf]
      · rcases w.heap.find? q with _ | q <;> simp [hq]
    have hi0 : i ≠ 0 := by have := (hd i f1).1; omega
    refine ⟨i, _, rfl, ⟨?_, ?_⟩, hi0, ?_, ?_, ?_, ?_, ?_⟩
    · intro j p hj
      simp only [htab] at hj
      split_ifs at hj with hji
      · injection hj with hj
        subst hj hji
        exact ⟨hi0, o, by simp only [hheap, if_true]⟩
      · obtain ⟨a, b, c⟩ := hw.live j p hj
        refine ⟨a, b, ?_⟩
        simp only [hheap]
        rw [if_neg]
        · exact c
        · rintro rfl
          rw [hf] at c
          exact absurd c (by simp)
    · intro j k p hj hk
      simp only [htab] at hj hk
      have fresh : ∀ j, w.table.find? j ≠ some addr := by
        intro j h
        obtain ⟨_, b, c⟩ := hw.live j addr h
        rw [hf] at c
        exact absurd c (by simp)
      split_ifs at hj hk with c1 c2 c2
      · rw [c1, c2]
      · injection hj with hj
        rw [← hj] at hk
        exact absurd hk (fresh k)
      · injection hk with hk
        rw [← hk] at hj
        exact absurd hj (fresh j)
      · exact hw.inj j k p hj hk
    · unfold World.object
      rw [f2]; rfl
    · intro j
      unfold World.object
      simp only [htab, hheap]
      by_cases hj : j = i
      · subst hj; simp
      · simp only [hj, if_false]
        rcases ht : w.table.find? j with _ | q
        · rfl
        · have : q ≠ addr := by
            rintro rfl
            obtain ⟨_, b, c⟩ := hw.live j _ ht
            rw [hf] at c
            exact absurd c (by simp)
          simp [this]
    · intro q hq
      simp only [hheap, if_neg hq]
    · simp only [htab, if_true]
    · intro j hj
      simp only [htab, if_neg hj]

/-- Destroying an object. -/
theorem World.WF.destroy {w : World σ τ} (hw : w.WF) {h p : Nat} (hp : w.table.find? h = some p) :
    ∃ w', w.destroy h p = (.ok (), w') ∧ w'.WF ∧
      (∀ j, w'.object j = if j = h then none else w.object j) ∧
      (∀ q, w'.heap.find? q = if q = p then none else w.heap.find? q) ∧
      (∀ j, w'.table.find? j = if j = h then none else w.table.find? j) := by
  have h0 : ¬ h = 0 := (hw.live h p hp).1
  unfold World.destroy PTable.remove
  rw [if_neg h0, hp]
  simp only
  have htab := UMap.find?_erase w.table h
  have hheap := UMap.find?_erase w.heap p
  refine ⟨_, rfl, ⟨?_, ?_⟩, ?_, hheap, htab⟩
  · intro j q hj
    rw [htab] at hj
    split_ifs at hj with hjh
    refine ⟨(hw.live j q hj).1, ?_⟩
    simp only [hheap]
    rw [if_neg]
    · exact (hw.live j q hj).2
    · rintro rfl
      exact hjh (hw.inj j h q hj hp)
  · intro j k q hj hk
    rw [htab] at hj hk
    split_ifs at hj hk
    exact hw.inj j k q hj hk
  · intro j
    unfold World.object
    simp only [htab, hheap]
    by_cases hj : j = h
    · simp [hj]
    · simp only [hj, if_false]
      rcases ht : w.table.find? j with _ | q
      · rfl
      · have : ¬ q = p := by
          rintro rfl
          exact hj (hw.inj j h q ht hp)
        simp [this]

/-- An object that no handle stands for changes nothing. -/
theorem World.WF.leak {w : World σ τ} (hw : w.WF) {addr : Nat} (o : Obj σ τ)
    (hf : w.heap.find? addr = none) :
    World.WF { w with heap := w.heap.emplace addr o } ∧
    (∀ j, World.object { w with heap := w.heap.emplace addr o } j = w.object j) ∧
    (∀ q, q ≠ addr → (w.heap.emplace addr o).find? q = w.heap.find? q) := by
  have hheap : ∀ q, (w.heap.emplace addr o).find? q = if q = addr then some o else w.heap.find? q := by
    intro q
    rw [UMap.find?_emplace]
    by_cases hq : q = addr
    · subst hq; rw [hf]
    · rcases w.heap.find? q with _ | q <;> simp [hq]
  have ne : ∀ j q, w.table.find? j = some q → q ≠ addr := by
    rintro j q h rfl
    obtain ⟨_, b, c⟩ := hw.live j _ h
    rw [hf] at c
    exact absurd c (by simp)
  refine ⟨⟨?_, hw.inj⟩, ?_, ?_⟩
  · intro i p hi
    refine ⟨(hw.live i p hi).1, ?_⟩
    simp only [hheap, if_neg (ne i p hi)]
    exact (hw.live i p hi).2
  · intro j
    unfold World.object
    simp only
    rcases ht : w.table.find? j with _ | q
    · rfl
    · simp [hheap, ne j q ht]
  · intro q hq
    rw [hheap, if_neg hq]

/-! ### Looking up objects -/

theorem estimator_cases {w : World σ τ} (hw : w.WF) (h : Nat) :
    (w.object h = none ∧ w.estimator h = .error .invalidArgument) ∨
    (∃ p e, w.object h = some (.est e) ∧ w.table.find? h = some p ∧
      w.heap.find? p = some (.est e) ∧ w.estimator h = .ok (p, e) ∧ h ≠ 0) ∨
    (∃ o, w.object h = some o ∧ (∀ e, o ≠ .est e) ∧ w.estimator h = .error .ub) := by
  unfold World.estimator PTable.get
  rcases ht : w.table.find? h with _ | p
  · left
    refine ⟨by unfold World.object; rw [ht]; rfl, ?_⟩
    by_cases h0 : h = 0 <;> simp [h0]
  · obtain ⟨h0, o, ho⟩ := hw.live h p ht
    have hobj : w.object h = some o := object_eq_some.2 ⟨p, ht, ho⟩
    rw [if_neg h0]
    simp only [ho]
    cases o with
    | est e => exact Or.inr (Or.inl ⟨p, e, hobj, rfl, ho, rfl, h0⟩)
    | xf t => exact Or.inr (Or.inr ⟨_, hobj, by simp, rfl⟩)
    | message m => exact Or.inr (Or.inr ⟨_, hobj, by simp, rfl⟩)

theorem transformer_cases {w : World σ τ} (hw : w.WF) (h : Nat) :
    (w.object h = none ∧ w.transformer h = .error .invalidArgument) ∨
    (∃ p t, w.object h = some (.xf t) ∧ w.table.find? h = some p ∧
      w.heap.find? p = some (.xf t) ∧ w.transformer h = .ok (p, t) ∧ h ≠ 0) ∨
    (∃ o, w.object h = some o ∧ (∀ t, o ≠ .xf t) ∧ w.transformer h = .error .ub) := by
  unfold World.transformer PTable.get
  rcases ht : w.table.find? h with _ | p
  · left
    refine ⟨by unfold World.object; rw [ht]; rfl, ?_⟩
    by_cases h0 : h = 0 <;> simp [h0]
  · obtain ⟨h0, o, ho⟩ := hw.live h p ht
    have hobj : w.object h = some o := object_eq_some.2 ⟨p, ht, ho⟩
    rw [if_neg h0]
    simp only [ho]
    cases o with
    | xf t => exact Or.inr (Or.inl ⟨p, t, hobj, rfl, ho, rfl, h0⟩)
    | est e => exact Or.inr (Or.inr ⟨_, hobj, by simp, rfl⟩)
    | message m => exact Or.inr (Or.inr ⟨_, hobj, by simp, rfl⟩)

theorem message_cases {w : World σ τ} (hw : w.WF) (h : Nat) :
    (w.object h = none ∧ w.message h = .error .invalidArgument) ∨
    (∃ p e, w.object h = some (.message e) ∧ w.table.find? h = some p ∧
      w.heap.find? p = some (.message e) ∧ w.message h = .ok (p, e) ∧ h ≠ 0) ∨
    (∃ o, w.object h = some o ∧ (∀ e, o ≠ .message e) ∧ w.message h = .error .ub) := by
  unfold World.message PTable.get
  rcases ht : w.table.find? h with _ | p
  · left
    refine ⟨by unfold World.object; rw [ht]; rfl, ?_⟩
    by_cases h0 : h = 0 <;> simp [h0]
  · obtain ⟨h0, o, ho⟩ := hw.live h p ht
    have hobj : w.object h = some o := object_eq_some.2 ⟨p, ht, ho⟩
    rw [if_neg h0]
    simp only [ho]
    cases o with
    | message e => exact Or.inr (Or.inl ⟨p, e, hobj, rfl, ho, rfl, h0⟩)
    | est e => exact Or.inr (Or.inr ⟨_, hobj, by simp, rfl⟩)
    | xf t => exact Or.inr (Or.inr ⟨_, hobj, by simp, rfl⟩)

/-! ### The body of a call does what direct calls would -/

/-- Every allocated object has a handle. -/
def World.Tight (w : World σ τ) : Prop :=
  ∀ p, w.heap.find? p ≠ none → ∃ i, w.table.find? i = some p

/-- `begin_training` of a new estimator does not throw. -/
def Featurizer.BeginOk (F : Featurizer σ ι τ O) : Prop :=
  ∀ s, F.new = .ok s → ∃ b s', F.hooks.begin s = (.ok b, s')

/-- The world moved from `w` to `w'`: only the handle `h` changed, to `o`. -/
structure Moved (F : Featurizer σ ι τ O) (l : Luck) (w w' : World σ τ) (h : Nat)
    (o : Option (Obj σ τ)) : Prop where
  wf : w'.WF
  object : ∀ j, w'.object j = if j = h then o else w.object j
  errFree : w'.heap.find? l.errAddr = none
  tight : F.BeginOk → w.Tight → w'.Tight

theorem Moved.refl {F : Featurizer σ ι τ O} {l : Luck} {w : World σ τ} (hw : w.WF) (hl : l.Ok w)
    {h : Nat} {o : Option (Obj σ τ)} (ho : w.object h = o) : Moved F l w w h o := by
  refine ⟨hw, ?_, hl.errFree, fun _ h => h⟩
  intro j
  split_ifs with hj
  · rw [hj, ho]
  · rfl

theorem Moved.put {F : Featurizer σ ι τ O} {l : Luck} {w : World σ τ} (hw : w.WF) (hl : l.Ok w)
    {h p : Nat} {o : Obj σ τ} (o' : Obj σ τ) (hp : w.table.find? h = some p)
    (ho : w.heap.find? p = some o) : Moved F l w (w.put p o') h (some o') := by
  obtain ⟨a, b, c⟩ := hw.put o o' hp ho
  refine ⟨a, b, (c _).2 hl.errFree, ?_⟩
  intro _ ht q hq
  exact ht q (fun h => hq ((c q).2 h))

/-- The outcome of a body that returns or throws. -/
def Matches (F : Featurizer σ ι τ O) (l : Luck) (w : World σ τ) (h : Nat)
    (r : Option (Except Err (Value O) × World σ τ)) : Effect σ τ O → Prop
  | .crashes => r = some (.error .ub, w)
  | .fails e o => ∃ w', r = some (.error e, w') ∧ Moved F l w w' h o
  | .succeeds v o => ∃ w', r = some (.ok v, w') ∧ Moved F l w w' h o
  | .creates n o => (r = none ∧ ∀ d ∈ l.draws, w.object d ≠ none) ∨ ∃ i w', r = some (.ok (.handle i), w') ∧ w'.WF ∧ i ≠ 0 ∧
      w.object i = none ∧
      (∀ j, w'.object j = if j = i then some n else if j = h then o else w.object j) ∧
      w'.heap.find? l.errAddr = none ∧ (F.BeginOk → w.Tight → w'.Tight)

theorem addObject_tight {w w' : World σ τ} {addr i : Nat} (ht : w.Tight)
    (h1 : ∀ q, q ≠ addr → w'.heap.find? q = w.heap.find? q) (h2 : w'.table.find? i = some addr)
    (h3 : ∀ j, j ≠ i → w'.table.find? j = w.table.find? j) (h4 : w.object i = none)
    (hw : w.WF) : w'.Tight := by
  intro q hq
  by_cases hqa : q = addr
  · exact ⟨i, hqa ▸ h2⟩
  · rw [h1 q hqa] at hq
    obtain ⟨j, hj⟩ := ht q hq
    refine ⟨j, ?_⟩
    rw [h3 j, hj]
    rintro rfl
    obtain ⟨_, o, ho⟩ := hw.live j q hj
    have := object_eq_some.2 ⟨q, hj, ho⟩
    rw [h4] at this
    exact absurd this (by simp)

theorem onEstimator_matches {F : Featurizer σ ι τ O} {l : Luck} {w : World σ τ} (hw : w.WF)
    (hl : l.Ok w) (h : Nat) {α : Type} (m : Op (Est σ) α) (f : α → Value O) :
    Matches F l w h (w.onEstimator h m f) (onEst (w.object h) m f) := by
  unfold World.onEstimator onEst
  by_cases h0 : h = 0
  · subst h0
    rw [if_pos rfl, hw.object_zero]
    exact ⟨w, rfl, Moved.refl hw hl hw.object_zero⟩
  · rw [if_neg h0]
    rcases estimator_cases hw h with ⟨a, b⟩ | ⟨p, e, a, b, c, d, -⟩ | ⟨o, a, b, c⟩
    · rw [a, b]
      exact ⟨w, rfl, Moved.refl hw hl a⟩
    · rw [a, d]
      simp only
      rcases m e with ⟨x | v, e'⟩
      · exact ⟨_, rfl, Moved.put hw hl _ b c⟩
      · exact ⟨_, rfl, Moved.put hw hl _ b c⟩
    · rw [a, c]
      cases o with
      | est e => exact absurd rfl (b e)
      | xf t => rfl
      | message m => rfl

theorem onTransformer_matches {F : Featurizer σ ι τ O} {l : Luck} {w : World σ τ} (hw : w.WF)
    (hl : l.Ok w) (h : Nat) {α : Type} (m : Op τ α) (f : α → Value O) :
    Matches F l w h (w.onTransformer h m f) (onXf (w.object h) m f) := by
  unfold World.onTransformer onXf
  by_cases h0 : h = 0
  · subst h0
    rw [if_pos rfl, hw.object_zero]
    exact ⟨w, rfl, Moved.refl hw hl hw.object_zero⟩
  · rw [if_neg h0]
    rcases transformer_cases hw h with ⟨a, b⟩ | ⟨p, t, a, b, c, d, -⟩ | ⟨o, a, b, c⟩
    · rw [a, b]
      exact ⟨w, rfl, Moved.refl hw hl a⟩
    · rw [a, d]
      simp only
      rcases m t with ⟨x | v, t'⟩
      · exact ⟨_, rfl, Moved.put hw hl _ b c⟩
      · exact ⟨_, rfl, Moved.put hw hl _ b c⟩
    · rw [a, c]
      cases o with
      | est e => rfl
      | xf t => exact absurd rfl (b t)
      | message m => rfl

theorem destroy_moved {F : Featurizer σ ι τ O} {l : Luck} {w : World σ τ} (hw : w.WF) (hl : l.Ok w)
    {h p : Nat} (hp : w.table.find? h = some p) :
    ∃ w', w.destroy h p = (.ok (), w') ∧ Moved F l w w' h none := by
  obtain ⟨w', a, b, c, d, e⟩ := hw.destroy hp
  refine ⟨w', a, b, c, ?_, ?_⟩
  · rw [d]
    split_ifs
    · rfl
    · exact hl.errFree
  · intro _ ht q hq
    rw [d] at hq
    split_ifs at hq with hqp
    · exact absurd rfl hq
    · obtain ⟨j, hj⟩ := ht q hq
      refine ⟨j, ?_⟩
      rw [e, if_neg, hj]
      rintro rfl
      rw [hp] at hj
      injection hj with hj
      exact hqp hj.symm

/-- With an out-parameter or without. -/
theorem guard_matches {F : Featurizer σ ι τ O} {l : Luck} {w : World σ τ} (hw : w.WF)
    (hl : l.Ok w) (h : Nat) (out : Bool) {r : Option (Except Err (Value O) × World σ τ)}
    {x : Effect σ τ O} (hm : Matches F l w h r x)
    (hx : w.object h = none → x = .fails .invalidArgument none) :
    Matches F l w h (if h = 0 ∨ out = false then some (.error .invalidArgument, w) else r)
      (if out = true then x else .fails .invalidArgument (w.object h)) := by
  cases out with
  | false =>
    rw [if_pos (Or.inr rfl), if_neg (by decide)]
    exact ⟨w, rfl, Moved.refl hw hl rfl⟩
  | true =>
    rw [if_pos rfl]
    by_cases h0 : h = 0
    · subst h0
      rw [if_pos (Or.inl rfl), hx hw.object_zero]
      exact ⟨w, rfl, Moved.refl hw hl hw.object_zero⟩
    · rw [if_neg (by simpa using h0)]
      exact hm

theorem onEst_none {α : Type} (m : Op (Est σ) α) (f : α → Value O) :
    onEst (none : Option (Obj σ τ)) m f = .fails .invalidArgument none := rfl

theorem onXf_none {α : Type} (m : Op τ α) (f : α → Value O) :
    onXf (none : Option (Obj σ τ)) m f = .fails .invalidArgument none := rfl

theorem addObject_matches {F : Featurizer σ ι τ O} {l : Luck} {w0 w : World σ τ}
    (hl : l.Ok w0) (h : Nat) (n : Obj σ τ) (o : Option (Obj σ τ)) (hm : Moved F l w0 w h o)
    (hfree : w.heap.find? l.addr = none) (hkeep : ∀ i, w.object i = none ↔ w0.object i = none) :
    Matches F l w0 h
      (match w.addObject l.addr l.draws n with
        | none => none
        | some (.error x, w') => some (.error x, w')
        | some (.ok i, w') => some (.ok (.handle i), w'))
      (.creates n o) := by
  rcases hm.wf.addObject n hl.addr0 hfree hl.draws with ⟨ha, hn⟩ | ⟨i, w', ha, b, c, d, e, f, g, k⟩
  · rw [ha]; exact Or.inl ⟨rfl, fun d hd h => hn d hd ((hkeep d).2 h)⟩
  · rw [ha]
    refine Or.inr ⟨i, w', rfl, b, c, (hkeep i).1 d, ?_, ?_, ?_⟩
    · intro j
      rw [e, hm.object]
    · rw [f _ (fun h => hl.distinct h.symm), hm.errFree]
    · intro hb ht
      exact addObject_tight (hm.tight hb ht) f g k d hm.wf

/-- The body of every call has the effect of the direct calls. -/
theorem body_matches {F : Featurizer σ ι τ O} {l : Luck} {w : World σ τ} (hw : w.WF) (hl : l.Ok w)
    (c : Call ι) (hc : c.givesOut = true) :
    Matches F l w c.handle (body F w l c) (direct F (w.object c.handle) c) := by
  cases c with
  | createEstimator out =>
    cases out with
    | false => cases hc
    | true =>
      unfold body direct
      simp only [Call.handle]
      rcases hn : F.new with e | s
      · exact ⟨w, rfl, Moved.refl hw hl hw.object_zero⟩
      · simp only
        rcases hb : Est.beginTraining F.hooks (Est.new s) with ⟨x | u, e⟩
        · simp only
          obtain ⟨a, b, c⟩ := hw.leak (addr := l.addr) (.est e) hl.addrFree
          refine ⟨_, rfl, a, ?_, ?_, ?_⟩
          · intro j
            rw [b]
            split_ifs with hj
            · rw [hj, hw.object_zero]
            · rfl
          · exact (c _ (fun h => hl.distinct h.symm)).trans hl.errFree
          · intro hbo
            obtain ⟨b', s', hs⟩ := hbo s hn
            unfold Est.beginTraining Est.new at hb
            simp only [ne_eq, not_true_eq_false, if_false, hs] at hb
            cases b' <;> simp at hb
        · cases u
          simp only [if_true]
          have := addObject_matches (F := F) (w := w) hl 0 (.est e) none
            (Moved.refl hw hl hw.object_zero) hl.addrFree (fun _ => Iff.rfl)
          exact this
  | createWithDefault out =>
    cases out with
    | false => cases hc
    | true =>
      unfold body direct
      simp only [Call.handle]
      rcases hn : F.newDefault with e | s
      · exact ⟨w, rfl, Moved.refl hw hl hw.object_zero⟩
      · simp only [if_true]
        have := addObject_matches (F := F) (w := w) hl 0 (.est (Est.new s)) none
          (Moved.refl hw hl hw.object_zero) hl.addrFree (fun _ => Iff.rfl)
        exact this
  | destroyEstimator h =>
    unfold body direct
    simp only [Call.handle]
    by_cases h0 : h = 0
    · subst h0
      rw [if_pos rfl, hw.object_zero]
      exact ⟨w, rfl, Moved.refl hw hl hw.object_zero⟩
    · rw [if_neg h0]
      rcases estimator_cases hw h with ⟨a, b⟩ | ⟨p, e, a, b, c, d, -⟩ | ⟨o, a, b, c⟩
      · rw [a, b]
        exact ⟨w, rfl, Moved.refl hw hl a⟩
      · rw [a, d]
        simp only
        obtain ⟨w', e1, e2⟩ := destroy_moved (F := F) hw hl b
        rw [e1]
        exact ⟨w', rfl, e2⟩
      · rw [a, c]
        cases o with
        | est e => exact absurd rfl (b e)
        | xf t => rfl
        | message m => rfl
  | getState h out =>
    unfold body direct
    simp only [Call.handle]
    exact guard_matches hw hl h out (onEstimator_matches hw hl h _ _) (fun e => by rw [e]; rfl)
  | isTrainingComplete h out =>
    unfold body direct
    simp only [Call.handle]
    exact guard_matches hw hl h out (onEstimator_matches hw hl h _ _) (fun e => by rw [e]; rfl)
  | fit h x out =>
    unfold body direct
    simp only [Call.handle]
    exact guard_matches hw hl h out (onEstimator_matches hw hl h _ _) (fun e => by rw [e]; rfl)
  | fitBuffer h xs out =>
    unfold body direct
    simp only [Call.handle]
    rcases xs with _ | xs
    · have : (if h = 0 ∨ out = false then some (Except.error Err.invalidArgument, w)
          else some (Except.error Err.invalidArgument, w)) =
          (some (.error .invalidArgument, w) : Option (Except Err (Value O) × World σ τ)) := by
        split_ifs <;> rfl
      simp only [this]
      exact ⟨w, rfl, Moved.refl hw hl rfl⟩
    · simp only
      cases out with
      | false =>
        rw [if_pos (Or.inr rfl), if_pos (Or.inl rfl)]
        exact ⟨w, rfl, Moved.refl hw hl rfl⟩
      | true =>
        by_cases hx : xs = []
        · rw [if_pos (Or.inr hx)]
          have hl0 : xs.length = 0 := by rw [hx]; rfl
          rw [if_pos hl0]
          have : (if h = 0 ∨ true = false then some (Except.error Err.invalidArgument, w)
              else some (Except.error Err.invalidArgument, w)) =
              (some (.error .invalidArgument, w) : Option (Except Err (Value O) × World σ τ)) := by
            split_ifs <;> rfl
          rw [this]
          exact ⟨w, rfl, Moved.refl hw hl rfl⟩
        · rw [if_neg (show ¬ (true = false ∨ xs = []) by simpa using hx)]
          have hl0 : ¬ xs.length = 0 := by simpa using hx
          rw [if_neg hl0]
          have := guard_matches hw hl h true (F := F)
            (onEstimator_matches hw hl h (Est.fit F.hooks (some xs)) .fitResult)
            (fun e => by rw [e]; rfl)
          rwa [if_pos rfl] at this
  | onDataCompleted h => exact onEstimator_matches hw hl h _ _
  | completeTraining h => exact onEstimator_matches hw hl h _ _
  | createTransformer h out =>
    unfold body direct
    simp only [Call.handle]
    apply guard_matches hw hl h out
    · rcases estimator_cases hw h with ⟨a, b⟩ | ⟨p, e, a, b, c, d, -⟩ | ⟨o, a, b, c⟩
      · rw [a, b]
        exact ⟨w, rfl, Moved.refl hw hl a⟩
      · rw [a, d]
        simp only
        rcases Est.createTransformer F.hooks e with ⟨x | t, e'⟩
        · exact ⟨_, rfl, Moved.put hw hl _ b c⟩
        · have hput := Moved.put (F := F) hw hl (.est e') b c
          apply addObject_matches hl h (.xf t) (some (.est e')) hput
          · exact ((hw.put _ (.est e') b c).2.2 _).2 hl.addrFree
          · intro i
            rw [hput.object]
            split_ifs with hi
            · rw [hi, a]; simp
            · rfl
      · rw [a, c]
        cases o with
        | est e => exact absurd rfl (b e)
        | xf t => rfl
        | message m => rfl
    · intro e; rw [e]
  | loadTransformer buffer out =>
    unfold body direct
    simp only [Call.handle]
    rcases buffer with _ | b
    · exact ⟨w, rfl, Moved.refl hw hl hw.object_zero⟩
    · simp only
      by_cases hc' : out = false ∨ b = []
      · rw [if_pos hc', if_pos (by
          rcases hc' with h | h
          · exact Or.inr h
          · exact Or.inl (by rw [h]; rfl))]
        exact ⟨w, rfl, Moved.refl hw hl hw.object_zero⟩
      · rw [if_neg hc', if_neg (by
          rintro (h | h)
          · exact hc' (Or.inr (List.length_eq_zero_iff.1 h))
          · exact hc' (Or.inl h))]
        rcases F.load b with e | t
        · exact ⟨w, rfl, Moved.refl hw hl hw.object_zero⟩
        · exact addObject_matches (F := F) (w := w) hl 0 (.xf t) none
            (Moved.refl hw hl hw.object_zero) hl.addrFree (fun _ => Iff.rfl)
  | destroyTransformer h =>
    unfold body direct
    simp only [Call.handle]
    by_cases h0 : h = 0
    · subst h0
      rw [if_pos rfl, hw.object_zero]
      exact ⟨w, rfl, Moved.refl hw hl hw.object_zero⟩
    · rw [if_neg h0]
      rcases transformer_cases hw h with ⟨a, b⟩ | ⟨p, e, a, b, c, d, -⟩ | ⟨o, a, b, c⟩
      · rw [a, b]
        exact ⟨w, rfl, Moved.refl hw hl a⟩
      · rw [a, d]
        simp only
        obtain ⟨w', e1, e2⟩ := destroy_moved (F := F) hw hl b
        rw [e1]
        exact ⟨w', rfl, e2⟩
      · rw [a, c]
        cases o with
        | est e => rfl
        | xf t => exact absurd rfl (b t)
        | message m => rfl
  | save h out =>
    unfold body direct
    simp only [Call.handle]
    exact guard_matches hw hl h out (onTransformer_matches hw hl h _ _) (fun e => by rw [e]; rfl)
  | transform h x out =>
    unfold body direct
    simp only [Call.handle]
    exact guard_matches hw hl h out (onTransformer_matches hw hl h _ _) (fun e => by rw [e]; rfl)
  | flush h out =>
    unfold body direct
    simp only [Call.handle]
    exact guard_matches hw hl h out (onTransformer_matches hw hl h _ _) (fun e => by rw [e]; rfl)

end CApi

end Feat
