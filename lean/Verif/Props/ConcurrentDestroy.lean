import Verif.Model.ConcurrentDestroy
import Verif.Props.PointerTable

/-!
# C62: destroying a handle from several threads deletes its object once
-/

namespace Feat

namespace Destroy

/-- The handle a thread is about. -/
def Thread.handle : Thread → Nat
  | .ready h => h
  | .found h _ => h
  | .unlinked h _ => h
  | .deleted h _ => h
  | .refused h => h

/-- The thread removed the handle. -/
def Thread.Won : Thread → Prop
  | .unlinked _ _ => True
  | .deleted _ _ => True
  | _ => False

/-- What holds between the start `s0` and a state `s`, as long as handles are not used again, for a
handle that stood for `p` at the start. -/
structure Inv (s0 s : State) (h p : Nat) : Prop where
  same : ∀ k, (s.threads k).handle = (s0.threads k).handle
  seen : h ∈ s.seen
  table : s.table.find? h = some p ∨ s.table.find? h = none
  found : ∀ k q, s.threads k = .found h q → q = p
  unlinked : ∀ k q, s.threads k = .unlinked h q → q = p
  deleted : ∀ k q, s.threads k = .deleted h q → q = p
  live : s.table.find? h = some p → ∀ k, (s.threads k).handle = h →
    s.threads k = .ready h ∨ s.threads k = .found h p
  gone : s.table.find? h = none → ∃ k, (s.threads k).handle = h ∧ (s.threads k).Won
  once : ∀ k k', (s.threads k).handle = h → (s.threads k').handle = h → (s.threads k).Won →
    (s.threads k').Won → k = k'

theorem get_eq {t : PTable} {h p : Nat} (hg : t.get h = .ok p) : t.find? h = some p := by
  unfold PTable.get at hg
  split_ifs at hg
  rcases hf : t.find? h with _ | q
  · rw [hf] at hg; exact absurd hg (by simp)
  · rw [hf] at hg
    injection hg with hg
    rw [hg]

theorem get_error {t : PTable} {h : Nat} {e : Err} (h0 : h ≠ 0) (hg : t.get h = .error e) :
    t.find? h = none := by
  unfold PTable.get at hg
  rw [if_neg h0] at hg
  rcases hf : t.find? h with _ | q
  · rfl
  · rw [hf] at hg; exact absurd hg (by simp)

theorem remove_ok {t t' : PTable} {h : Nat} (hg : t.remove h = (.ok (), t')) :
    (∃ p, t.find? h = some p) ∧ ∀ j, t'.find? j = if j = h then none else t.find? j := by
  unfold PTable.remove at hg
  split_ifs at hg
  · simp at hg
  · rcases hf : t.find? h with _ | q
    · rw [hf] at hg; simp at hg
    · rw [hf] at hg
      injection hg with _ hg
      subst hg
      exact ⟨⟨q, rfl⟩, UMap.find?_erase t h⟩

theorem remove_error {t t' : PTable} {h : Nat} {e : Err} (hg : t.remove h = (.error e, t')) :
    t' = t ∧ (h ≠ 0 → t.find? h = none) := by
  unfold PTable.remove at hg
  split_ifs at hg with h0
  · injection hg with _ hg
    exact ⟨hg.symm, fun h' => absurd h0 h'⟩
  · rcases hf : t.find? h with _ | q
    · rw [hf] at hg
      injection hg with _ hg
      exact ⟨hg.symm, fun _ => rfl⟩
    · rw [hf] at hg; simp at hg

theorem add_ok {t t' : PTable} {draws : List Nat} {p i : Nat}
    (hg : t.add draws p = some (.ok i, t')) :
    ∀ j, j ≠ i → t'.find? j = t.find? j := by
  unfold PTable.add at hg
  split_ifs at hg
  · simp at hg
  · rcases hf : PTable.freeIndex t draws with _ | i'
    · rw [hf] at hg; simp at hg
    · rw [hf] at hg
      simp only [Option.some.injEq, Prod.mk.injEq, Except.ok.injEq] at hg
      obtain ⟨rfl, rfl⟩ := hg
      intro j hj
      rw [UMap.find?_emplace]
      rcases t.find? j with _ | q <;> simp [hj]

theorem Inv.step {s0 s s' : State} {h p : Nat} (h0 : h ≠ 0) (hi : Inv s0 s h p)
    (hs : Step False s s') : Inv s0 s' h p := by
  cases hs with
  | @lookup k h' p' ht hg =>
    have hf := get_eq hg
    have hth : ∀ j, (s.at k (.found h' p')).threads j =
        if j = k then .found h' p' else s.threads j := fun _ => rfl
    have hh : ∀ j, ((s.at k (.found h' p')).threads j).handle = (s.threads j).handle := by
      intro j
      rw [hth]
      split_ifs with hj
      · rw [hj, ht]; rfl
      · rfl
    have hwon : ∀ j, ((s.at k (.found h' p')).threads j).Won ↔ (s.threads j).Won := by
      intro j
      rw [hth]
      split_ifs with hj
      · rw [hj, ht]; simp [Thread.Won]
      · exact Iff.rfl
    refine ⟨fun j => by rw [hh, hi.same], hi.seen, hi.table, ?_, ?_, ?_, ?_, ?_, ?_⟩
    · intro j q hq
      rw [hth] at hq
      split_ifs at hq with hj
      · injection hq with e1 e2
        subst e1 e2
        rcases hi.table with h1 | h1
        · rw [h1] at hf
          injection hf with hf
          exact hf.symm
        · rw [h1] at hf; exact absurd hf (by simp)
      · exact hi.found j q hq
    · intro j q hq
      rw [hth] at hq
      split_ifs at hq with hj
      exact hi.unlinked j q hq
    · intro j q hq
      rw [hth] at hq
      split_ifs at hq with hj
      exact hi.deleted j q hq
    · intro hl j hj
      rw [hh] at hj
      rw [hth]
      split_ifs with hjk
      · right
        have : h' = h := by
          rw [hjk, ht] at hj; exact hj
        subst this
        have hl : s.table.find? h' = some p := hl
        rw [hf] at hl
        injection hl with hl
        rw [hl]
      · exact hi.live hl j hj
    · intro hg'
      obtain ⟨j, hj1, hj2⟩ := hi.gone hg'
      exact ⟨j, by rw [hh, hj1], (hwon j).2 hj2⟩
    · intro j j' h1 h2 h3 h4
      rw [hh] at h1 h2
      rw [hwon] at h3 h4
      exact hi.once j j' h1 h2 h3 h4
  | @lookupFails k h' e ht hg =>
    have hth : ∀ j, (s.at k (.refused h')).threads j =
        if j = k then .refused h' else s.threads j := fun _ => rfl
    have hh : ∀ j, ((s.at k (.refused h')).threads j).handle = (s.threads j).handle := by
      intro j
      rw [hth]
      split_ifs with hj
      · rw [hj, ht]; rfl
      · rfl
    have hwon : ∀ j, ((s.at k (.refused h')).threads j).Won ↔ (s.threads j).Won := by
      intro j
      rw [hth]
      split_ifs with hj
      · rw [hj, ht]; simp [Thread.Won]
      · exact Iff.rfl
    refine ⟨fun j => by rw [hh, hi.same], hi.seen, hi.table, ?_, ?_, ?_, ?_, ?_, ?_⟩
    · intro j q hq
      rw [hth] at hq
      split_ifs at hq with hj
      exact hi.found j q hq
    · intro j q hq
      rw [hth] at hq
      split_ifs at hq with hj
      exact hi.unlinked j q hq
    · intro j q hq
      rw [hth] at hq
      split_ifs at hq with hj
      exact hi.deleted j q hq
    · intro hl j hj
      rw [hh] at hj
      rw [hth]
      split_ifs with hjk
      · have : h' = h := by
          rw [hjk, ht] at hj; exact hj
        subst this
        have hl : s.table.find? h' = some p := hl
        rw [get_error h0 hg] at hl
        exact absurd hl (by simp)
      · exact hi.live hl j hj
    · intro hg'
      obtain ⟨j, hj1, hj2⟩ := hi.gone hg'
      exact ⟨j, by rw [hh, hj1], (hwon j).2 hj2⟩
    · intro j j' h1 h2 h3 h4
      rw [hh] at h1 h2
      rw [hwon] at h3 h4
      exact hi.once j j' h1 h2 h3 h4
  | @unlink k h' p' t ht hg =>
    obtain ⟨⟨p'', hf⟩, hfind⟩ := remove_ok hg
    have hth : ∀ j, ({ s.at k (.unlinked h' p') with table := t } : State).threads j =
        if j = k then .unlinked h' p' else s.threads j := fun _ => rfl
    have hh : ∀ j, (({ s.at k (.unlinked h' p') with table := t } : State).threads j).handle =
        (s.threads j).handle := by
      intro j
      rw [hth]
      split_ifs with hj
      · rw [hj, ht]; rfl
      · rfl
    refine ⟨fun j => by rw [hh, hi.same], hi.seen, ?_, ?_, ?_, ?_, ?_, ?_, ?_⟩
    · show t.find? h = some p ∨ t.find? h = none
      rw [hfind]
      split_ifs
      · right; rfl
      · exact hi.table
    · intro j q hq
      rw [hth] at hq
      split_ifs at hq with hj
      exact hi.found j q hq
    · intro j q hq
      rw [hth] at hq
      split_ifs at hq with hj
      · injection hq with e1 e2
        subst e1 e2
        exact hi.found k p' ht
      · exact hi.unlinked j q hq
    · intro j q hq
      rw [hth] at hq
      split_ifs at hq with hj
      exact hi.deleted j q hq
    · intro hl j hj
      rw [hh] at hj
      have hl : t.find? h = some p := hl
      rw [hfind] at hl
      split_ifs at hl with hne
      rw [hth]
      split_ifs with hjk
      · have : h' = h := by
          rw [hjk, ht] at hj; exact hj
        exact absurd this.symm hne
      · exact hi.live hl j hj
    · intro hg'
      have hg' : t.find? h = none := hg'
      rw [hfind] at hg'
      by_cases hne : h = h'
      · refine ⟨k, ?_, ?_⟩
        · rw [hh, ht]; exact hne.symm
        · rw [hth, if_pos rfl]; trivial
      · rw [if_neg hne] at hg'
        obtain ⟨j, hj1, hj2⟩ := hi.gone hg'
        refine ⟨j, by rw [hh, hj1], ?_⟩
        rw [hth, if_neg]
        · exact hj2
        · rintro rfl
          rw [ht] at hj1
          exact hne hj1.symm
    · intro j j' h1 h2 h3 h4
      rw [hh] at h1 h2
      by_cases hne : h = h'
      · subst hne
        have hlive : s.table.find? h = some p := by
          rcases hi.table with h | h
          · exact h
          · rw [h] at hf; exact absurd hf (by simp)
        have nowin : ∀ j, j ≠ k → (s.threads j).handle = h →
            ¬ (({ s.at k (.unlinked h p') with table := t } : State).threads j).Won := by
          intro j hj hjh
          rw [hth, if_neg hj]
          rcases hi.live hlive j hjh with h | h <;> rw [h] <;> simp [Thread.Won]
        have e1 : j = k := Decidable.byContradiction fun hj => nowin j hj h1 h3
        have e2 : j' = k := Decidable.byContradiction fun hj => nowin j' hj h2 h4
        rw [e1, e2]
      · have ne : ∀ j, (s.threads j).handle = h → j ≠ k := by
          rintro j hj rfl
          rw [ht] at hj
          exact hne hj.symm
        rw [hth, if_neg (ne j h1)] at h3
        rw [hth, if_neg (ne j' h2)] at h4
        exact hi.once j j' h1 h2 h3 h4
  | @unlinkFails k h' p' t e ht hg =>
    obtain ⟨rfl, hf⟩ := remove_error hg
    have hth : ∀ j, ({ s.at k (.refused h') with table := s.table } : State).threads j =
        if j = k then .refused h' else s.threads j := fun _ => rfl
    have hh : ∀ j, (({ s.at k (.refused h') with table := s.table } : State).threads j).handle =
        (s.threads j).handle := by
      intro j
      rw [hth]
      split_ifs with hj
      · rw [hj, ht]; rfl
      · rfl
    have hwon : ∀ j, (({ s.at k (.refused h') with table := s.table } : State).threads j).Won ↔
        (s.threads j).Won := by
      intro j
      rw [hth]
      split_ifs with hj
      · rw [hj, ht]; simp [Thread.Won]
      · exact Iff.rfl
    refine ⟨fun j => by rw [hh, hi.same], hi.seen, hi.table, ?_, ?_, ?_, ?_, ?_, ?_⟩
    · intro j q hq
      rw [hth] at hq
      split_ifs at hq with hj
      exact hi.found j q hq
    · intro j q hq
      rw [hth] at hq
      split_ifs at hq with hj
      exact hi.unlinked j q hq
    · intro j q hq
      rw [hth] at hq
      split_ifs at hq with hj
      exact hi.deleted j q hq
    · intro hl j hj
      rw [hh] at hj
      rw [hth]
      split_ifs with hjk
      · have : h' = h := by
          rw [hjk, ht] at hj; exact hj
        subst this
        have hl : s.table.find? h' = some p := hl
        rw [hf h0] at hl
        exact absurd hl (by simp)
      · exact hi.live hl j hj
    · intro hg'
      obtain ⟨j, hj1, hj2⟩ := hi.gone hg'
      exact ⟨j, by rw [hh, hj1], (hwon j).2 hj2⟩
    · intro j j' h1 h2 h3 h4
      rw [hh] at h1 h2
      rw [hwon] at h3 h4
      exact hi.once j j' h1 h2 h3 h4
  | @delete k h' p' ht =>
    have hth : ∀ j, (s.at k (.deleted h' p')).threads j =
        if j = k then .deleted h' p' else s.threads j := fun _ => rfl
    have hh : ∀ j, ((s.at k (.deleted h' p')).threads j).handle = (s.threads j).handle := by
      intro j
      rw [hth]
      split_ifs with hj
      · rw [hj, ht]; rfl
      · rfl
    have hwon : ∀ j, ((s.at k (.deleted h' p')).threads j).Won ↔ (s.threads j).Won := by
      intro j
      rw [hth]
      split_ifs with hj
      · rw [hj, ht]; simp [Thread.Won]
      · exact Iff.rfl
    refine ⟨fun j => by rw [hh, hi.same], hi.seen, hi.table, ?_, ?_, ?_, ?_, ?_, ?_⟩
    · intro j q hq
      rw [hth] at hq
      split_ifs at hq with hj
      exact hi.found j q hq
    · intro j q hq
      rw [hth] at hq
      split_ifs at hq with hj
      exact hi.unlinked j q hq
    · intro j q hq
      rw [hth] at hq
      split_ifs at hq with hj
      · injection hq with e1 e2
        subst e1 e2
        exact hi.unlinked k p' ht
      · exact hi.deleted j q hq
    · intro hl j hj
      rw [hh] at hj
      rw [hth]
      split_ifs with hjk
      · have hkh : h' = h := by
          rw [hjk, ht] at hj; exact hj
        subst hkh
        rcases hi.live hl k (by rw [ht]; rfl) with h | h <;> rw [ht] at h <;> exact absurd h (by simp)
      · exact hi.live hl j hj
    · intro hg'
      obtain ⟨j, hj1, hj2⟩ := hi.gone hg'
      exact ⟨j, by rw [hh, hj1], (hwon j).2 hj2⟩
    · intro j j' h1 h2 h3 h4
      rw [hh] at h1 h2
      rw [hwon] at h3 h4
      exact hi.once j j' h1 h2 h3 h4
  | @add draws p' i t hg hr =>
    have hi' : h ≠ i := by
      rintro rfl
      rcases hr with h | h
      · exact h
      · exact h hi.seen
    have hfind : t.find? h = s.table.find? h := add_ok hg h hi'
    refine ⟨hi.same, List.mem_cons_of_mem _ hi.seen, ?_, hi.found, hi.unlinked, hi.deleted, ?_, ?_,
      hi.once⟩
    · show t.find? h = some p ∨ t.find? h = none
      rw [hfind]; exact hi.table
    · intro hl
      exact hi.live (hfind.symm.trans hl)
    · intro hl
      exact hi.gone (hfind.symm.trans hl)

theorem Inv.initial {s0 : State} (hs : s0.Initial) {h p : Nat} (hl : s0.table.find? h = some p) :
    Inv s0 s0 h p where
  same _ := rfl
  seen := hs.seen h p hl
  table := Or.inl hl
  found k q hq := by
    obtain ⟨h', h''⟩ := hs.ready k
    rw [h''] at hq; exact absurd hq (by simp)
  unlinked k q hq := by
    obtain ⟨h', h''⟩ := hs.ready k
    rw [h''] at hq; exact absurd hq (by simp)
  deleted k q hq := by
    obtain ⟨h', h''⟩ := hs.ready k
    rw [h''] at hq; exact absurd hq (by simp)
  live _ k hk := by
    obtain ⟨h', h''⟩ := hs.ready k
    rw [h''] at hk
    left
    rw [h'']
    exact congrArg _ hk
  gone hn := by rw [hl] at hn; exact absurd hn (by simp)
  once k k' _ _ h3 := by
    obtain ⟨h', h''⟩ := hs.ready k
    rw [h''] at h3; exact absurd h3 (by simp [Thread.Won])

theorem Steps.inv {s0 s : State} (hs : s0.Initial) {h p : Nat} (h0 : h ≠ 0)
    (hl : s0.table.find? h = some p) (hst : Steps False s0 s) : Inv s0 s h p := by
  induction hst with
  | refl => exact Inv.initial hs hl
  | step _ h' ih => exact ih.step h0 h'

/-- C62 (partial: as long as no number is drawn that was a handle before): whatever the schedule, of the
threads that destroy one live handle at most one deletes, and what it deletes is the object of the
handle; … -/
theorem C62_at_most_once_partial {s0 s : State} (hs : s0.Initial) {h p : Nat} (h0 : h ≠ 0)
    (hl : s0.table.find? h = some p) (hst : Steps False s0 s) :
    (∀ k q, s.threads k = .deleted h q → q = p ∧ s.table.find? h = none) ∧
    (∀ k k' q q', s.threads k = .deleted h q → s.threads k' = .deleted h q' → k = k') := by
  have hi := hst.inv hs h0 hl
  refine ⟨?_, ?_⟩
  · intro k q hk
    refine ⟨hi.deleted k q hk, ?_⟩
    rcases hi.table with h1 | h1
    · rcases hi.live h1 k (by rw [hk]; rfl) with h | h <;> rw [hk] at h <;> exact absurd h (by simp)
    · exact h1
  · intro k k' q q' hk hk'
    exact hi.once k k' (by rw [hk]; rfl) (by rw [hk']; rfl) (by rw [hk]; trivial) (by rw [hk']; trivial)

/-- … when the threads that destroy it are done, exactly one of them has deleted it and all others were refused; … -/
theorem C62_exactly_once_partial {s0 s : State} (hs : s0.Initial) {h p : Nat} (h0 : h ≠ 0)
    (hl : s0.table.find? h = some p) (hst : Steps False s0 s)
    (hdone : ∀ k, s0.threads k = .ready h →
      (∃ q, s.threads k = .deleted h q) ∨ s.threads k = .refused h)
    (hsome : ∃ k, s0.threads k = .ready h) :
    ∃ k, s0.threads k = .ready h ∧ s.threads k = .deleted h p ∧
      ∀ k', k' ≠ k → s0.threads k' = .ready h → s.threads k' = .refused h := by
  have hi := hst.inv hs h0 hl
  have hgone : s.table.find? h = none := by
    rcases hi.table with h1 | h1
    · obtain ⟨k, hk⟩ := hsome
      have hkh : (s.threads k).handle = h := by rw [hi.same, hk]; rfl
      rcases hi.live h1 k hkh with h2 | h2 <;> rcases hdone k hk with ⟨q, h3⟩ | h3 <;>
        rw [h2] at h3 <;> exact absurd h3 (by simp)
    · exact h1
  obtain ⟨k, hk1, hk2⟩ := hi.gone hgone
  have hready : ∀ k, (s.threads k).handle = h → s0.threads k = .ready h := by
    intro k hk
    rw [hi.same] at hk
    obtain ⟨h', h''⟩ := hs.ready k
    rw [h''] at hk ⊢
    exact congrArg _ hk
  have hdel : s.threads k = .deleted h p := by
    rcases hdone k (hready k hk1) with ⟨q, h3⟩ | h3
    · rw [h3, hi.deleted k q h3]
    · rw [h3] at hk2
      exact absurd hk2 (by simp [Thread.Won])
  refine ⟨k, hready k hk1, hdel, ?_⟩
  intro k' hk' hr
  have hkh : (s.threads k').handle = h := by rw [hi.same, hr]; rfl
  rcases hdone k' hr with ⟨q, h3⟩ | h3
  · exact absurd (hi.once k' k hkh hk1 (by rw [h3]; trivial) hk2) hk'
  · exact h3

/-- … and a handle that no thread destroys keeps its object. -/
theorem C62_others_partial {s0 s : State} (hs : s0.Initial) {h p : Nat} (h0 : h ≠ 0)
    (hl : s0.table.find? h = some p) (hst : Steps False s0 s)
    (hno : ∀ k, s0.threads k ≠ .ready h) : s.table.find? h = some p := by
  have hi := hst.inv hs h0 hl
  rcases hi.table with h1 | h1
  · exact h1
  · obtain ⟨k, hk1, _⟩ := hi.gone h1
    rw [hi.same] at hk1
    obtain ⟨h', h''⟩ := hs.ready k
    rw [h''] at hk1
    have hk1 : h' = h := hk1
    rw [hk1] at h''
    exact absurd h'' (hno k)

/-! ### When a number is drawn that was a handle before -/

/-- The claim without the restriction. -/
def C62Claim : Prop :=
  ∀ s0 : State, s0.Initial → ∀ h p, h ≠ 0 → s0.table.find? h = some p → ∀ s, Steps True s0 s →
    ∀ k k' q q', s.threads k = .deleted h q → s.threads k' = .deleted h q' → k = k'

/-- Two threads destroy the handle 5 of object 100. -/
def twoThreads : State where
  table := UMap.empty.emplace 5 100
  threads := fun k => if k < 2 then .ready 5 else .ready 9
  seen := [5]

theorem twoThreads_initial : twoThreads.Initial where
  ready k := by
    unfold twoThreads
    simp only
    split_ifs
    · exact ⟨5, rfl⟩
    · exact ⟨9, rfl⟩
  seen h p hp := by
    unfold twoThreads at hp
    simp only [UMap.find?_emplace, UMap.find?_empty] at hp
    split_ifs at hp with h5
    simp [twoThreads, h5]

/-- Both look the handle up, one removes it and deletes the object, a third thread is given the same
number for the object 200, and the other removes that handle and deletes the first object again. -/
theorem C62_claim_false : ¬ C62Claim := by
  intro hc
  let s1 := twoThreads.at 0 (.found 5 100)
  let s2 := s1.at 1 (.found 5 100)
  let s3 : State := { s2.at 0 (.unlinked 5 100) with table := UMap.empty }
  let s4 := s3.at 0 (.deleted 5 100)
  let s5 : State := { s4 with table := UMap.empty.emplace 5 200, seen := [5, 5] }
  let s6 : State := { s5.at 1 (.unlinked 5 100) with table := UMap.empty }
  let s7 := s6.at 1 (.deleted 5 100)
  have h1 : Step True twoThreads s1 := Step.lookup rfl rfl
  have h2 : Step True s1 s2 := Step.lookup rfl rfl
  have h3 : Step True s2 s3 := Step.unlink rfl rfl
  have h4 : Step True s3 s4 := Step.delete rfl
  have h5 : Step True s4 s5 := Step.add (draws := [5]) (p := 200) rfl (Or.inl trivial)
  have h6 : Step True s5 s6 := Step.unlink rfl rfl
  have h7 : Step True s6 s7 := Step.delete rfl
  have hst : Steps True twoThreads s7 :=
    ((((((((Steps.refl _).step h1).step h2).step h3).step h4).step h5).step h6).step h7)
  exact absurd (hc twoThreads twoThreads_initial 5 100 (by decide) rfl s7 hst 0 1 100 100 rfl rfl)
    (by decide)

/-- Without the third thread the second is refused: the hypotheses of C62 are met. -/
example : ∃ s, Steps False twoThreads s ∧ s.threads 0 = .deleted 5 100 ∧
    s.threads 1 = .refused 5 ∧ (∀ k, twoThreads.threads k = .ready 5 → k = 0 ∨ k = 1) := by
  let s1 := twoThreads.at 0 (.found 5 100)
  let s2 := s1.at 1 (.found 5 100)
  let s3 : State := { s2.at 0 (.unlinked 5 100) with table := UMap.empty }
  let s4 := s3.at 0 (.deleted 5 100)
  let s5 : State := { s4.at 1 (.refused 5) with table := UMap.empty }
  have h1 : Step False twoThreads s1 := Step.lookup rfl rfl
  have h2 : Step False s1 s2 := Step.lookup rfl rfl
  have h3 : Step False s2 s3 := Step.unlink rfl rfl
  have h4 : Step False s3 s4 := Step.delete rfl
  have h5 : Step False s4 s5 := Step.unlinkFails (e := .invalidArgument) rfl rfl
  refine ⟨s5, ((((((Steps.refl _).step h1).step h2).step h3).step h4).step h5), rfl, rfl, ?_⟩
  intro k hk
  unfold twoThreads at hk
  simp only at hk
  split_ifs at hk with h
  · omega
  · exact absurd hk (by simp)

end Destroy

end Feat
