import Verif.Proofs.TimeSeriesImputer
import Mathlib.Order.Nat
/-
C35 gap filling and C36 imputed values of the time series imputer.

`expand f xs` (Spec/TimeSeriesImputer.lean) is the series of one key with one empty, flagged row at every grid time
`a + f, a + 2 f, …` strictly before the next row; `Filled P rows out` says that `out` is `rows` with its cells
replaced as described by `P`.
-/
namespace Feat
variable {K S : Type}

/-! ### Runs -/

/-- Invariants of runs. -/
theorem Xf.execAll_invariant {T I O : Type} (X : Xf T I O) (Good : List I → Prop) (Inv : List I → T → List O → Prop)
    (t₀ : T) (h0 : Inv [] t₀ []) (hpre : ∀ xs x, Good (xs ++ [x]) → Good xs)
    (step : ∀ xs x t outs, Good (xs ++ [x]) → Inv xs t outs →
      ∃ os t', X.exec t x = ⟨os, none, t'⟩ ∧ Inv (xs ++ [x]) t' (outs ++ os)) :
    ∀ xs, Good xs → ∃ outs t, X.execAll t₀ xs = ⟨outs, none, t⟩ ∧ Inv xs t outs := by
  intro xs
  induction xs using List.reverseRecOn with
  | nil => intro _; exact ⟨[], t₀, rfl, h0⟩
  | append_singleton xs x ih =>
    intro hg
    obtain ⟨outs, t, h1, h2⟩ := ih (hpre xs x hg)
    obtain ⟨os, t', h3, h4⟩ := step xs x t outs hg h2
    refine ⟨outs ++ os, t', ?_, h4⟩
    rw [Xf.execAll_append, h1]
    simp [Xf.execAll, h3]

theorem GoodSeries.prefix {f : Int} {space : Nat} {xs : List (TsIn K S)} {x : TsIn K S}
    (h : GoodSeries f space (xs ++ [x])) : GoodSeries f space xs :=
  ⟨h.frequency, fun y hy => h.times y (by simp [hy]), (List.pairwise_append.1 h.chronological).1,
    fun y hy z hz => h.widths y (by simp [hy]) z (by simp [hz]),
    fun y hy z hz => h.memory y (by simp [hy]) z (by simp [hz])⟩

/-- Everything about one key: an invariant that each `execute` maintains for the key of its row and does not change for
other keys. -/
private theorem run_all [LinearOrder K] (c : TsConfig K S)
    (P : K → List (TsIn K S) → Option (TsRow K S) → Option (List (TsRow K S)) → List (TsRow K S) → Prop)
    (G : List (TsIn K S) → List (TsRow K S) → Prop) (R : List (TsIn K S) → Prop)
    (hR : ∀ xs x, R (xs ++ [x]) → R xs) (h0 : ∀ k, P k [] none none []) (g0 : G [] [])
    (step : ∀ (xs : List (TsIn K S)) x (t : TsImputer K S) outs, GoodSeries c.frequency c.space (xs ++ [x]) →
      R (xs ++ [x]) → P x.key (ofKey x.key xs) (t.last.find? x.key) (t.buffer.find? x.key) (outOfKey x.key outs) → G xs outs →
      ∃ os t', t.exec c x = ⟨os, none, t'⟩ ∧ (∀ r ∈ os, r.key = x.key) ∧
        (∀ j, j ≠ x.key → t'.last.find? j = t.last.find? j ∧ t'.buffer.find? j = t.buffer.find? j) ∧
        P x.key (ofKey x.key xs ++ [x]) (t'.last.find? x.key) (t'.buffer.find? x.key) (outOfKey x.key outs ++ os) ∧
        G (xs ++ [x]) (outs ++ os))
    (xs : List (TsIn K S)) (hg : GoodSeries c.frequency c.space xs) (hr : R xs) :
    ∃ outs t, (tsImputerXf c).execAll .new xs = ⟨outs, none, t⟩ ∧
      (∀ k, P k (ofKey k xs) (t.last.find? k) (t.buffer.find? k) (outOfKey k outs)) ∧ G xs outs := by
  refine Xf.execAll_invariant (tsImputerXf c) (fun xs => GoodSeries c.frequency c.space xs ∧ R xs)
    (fun xs t outs => (∀ k, P k (ofKey k xs) (t.last.find? k) (t.buffer.find? k) (outOfKey k outs)) ∧ G xs outs)
    .new ⟨fun k => h0 k, g0⟩ (fun xs x h => ⟨h.1.prefix, hR xs x h.2⟩) ?_ xs ⟨hg, hr⟩
  intro xs x t outs ⟨hgood, hready⟩ ⟨hP, hG⟩
  obtain ⟨os, t', h1, h2, h3, h4, h5⟩ := step xs x t outs hgood hready (hP x.key) hG
  refine ⟨os, t', h1, fun k => ?_, h5⟩
  by_cases hk : k = x.key
  · subst hk
    have e1 : ofKey x.key (xs ++ [x]) = ofKey x.key xs ++ [x] := by simp [ofKey]
    have e2 : outOfKey x.key (outs ++ os) = outOfKey x.key outs ++ os := by
      unfold outOfKey
      rw [List.filter_append]
      congr 1
      rw [List.filter_eq_self]
      intro r hr
      simp [h2 r hr]
    rw [e1, e2]
    exact h4
  · have e1 : ofKey k (xs ++ [x]) = ofKey k xs := by simp [ofKey, Ne.symm hk]
    have e2 : outOfKey k (outs ++ os) = outOfKey k outs := by
      unfold outOfKey
      have : os.filter (fun r => r.key == k) = [] := by
        rw [List.filter_eq_nil_iff]
        intro r hr
        rw [h2 r hr]
        simpa using Ne.symm hk
      rw [List.filter_append, this, List.append_nil]
    rw [e1, e2, (h3 k hk).1, (h3 k hk).2]
    exact hP k

/-! ### The expanded series -/

theorem expand_snoc (f : Int) (l : List (TsIn K S)) (x : TsIn K S) :
    expand f (l ++ [x]) = expand f l ++ ((match l.getLast? with
      | none => []
      | some y => gridRows f y.time x) ++ [x.row]) := by
  induction l with
  | nil => rfl
  | cons a l ih =>
    cases l with
    | nil => simp [expand]
    | cons b l =>
      simp only [List.cons_append, expand, List.getLast?_cons_cons] at ih ⊢
      rw [ih]
      simp

theorem mem_gridRows {f a : Int} {x : TsIn K S} {r : TsRow K S} (h : r ∈ gridRows f a x) :
    r.added = true ∧ r.key = x.key ∧ r.cells = List.replicate x.cells.length none ∧ r.time ∈ gridTimes f a x.time := by
  unfold gridRows at h
  rw [List.mem_map] at h
  obtain ⟨t, ht, rfl⟩ := h
  exact ⟨rfl, rfl, rfl, ht⟩

theorem mem_expand {f : Int} {l : List (TsIn K S)} {r : TsRow K S} (h : r ∈ expand f l) :
    ∃ x ∈ l, r.key = x.key ∧ r.cells.length = x.cells.length := by
  induction l with
  | nil => simp [expand] at h
  | cons a l ih =>
    cases l with
    | nil =>
      simp only [expand, List.mem_singleton] at h
      subst h
      exact ⟨a, by simp, rfl, rfl⟩
    | cons b l =>
      simp only [expand, List.cons_append, List.mem_cons, List.mem_append] at h
      rcases h with rfl | h | h
      · exact ⟨a, by simp, rfl, rfl⟩
      · obtain ⟨_, h2, h3, _⟩ := mem_gridRows h
        exact ⟨b, by simp, h2, by rw [h3]; simp⟩
      · obtain ⟨x, hx, h⟩ := ih h
        exact ⟨x, List.mem_cons_of_mem _ hx, h⟩

private theorem gridRows_same (f : Int) (hf : 0 < f) (x : TsIn K S) : gridRows f x.time x = [] := by
  unfold gridRows
  rw [List.map_eq_nil_iff, List.eq_nil_iff_forall_not_mem]
  intro t ht
  rw [mem_gridTimes f _ _ _ hf] at ht
  obtain ⟨n, h1, h2⟩ := ht
  have : 0 ≤ ((n : Int) + 1) * f := Int.mul_nonneg (by omega) (by omega)
  omega

private theorem ofKey_mem [DecidableEq K] {k : K} {xs : List (TsIn K S)} {y : TsIn K S} (h : y ∈ ofKey k xs) :
    y ∈ xs ∧ y.key = k := by
  simpa [ofKey] using h

/-- What the rows added for a new row are. -/
private def newRows (f : Int) (l : List (TsIn K S)) (x : TsIn K S) : List (TsRow K S) :=
  (match l.getLast? with
    | none => []
    | some y => gridRows f y.time x) ++ [x.row]

/-- Facts about one step. -/
private theorem step_facts [LinearOrder K] (c : TsConfig K S) (xs : List (TsIn K S)) (x : TsIn K S)
    (hg : GoodSeries c.frequency c.space (xs ++ [x])) (last : Option (TsRow K S))
    (hl : last.map (·.time) = (ofKey x.key xs).getLast?.map (·.time)) :
    last.any (fun l => decide (x.time < l.time)) = false ∧
    generateRows c.frequency c.space x (last.getD x.row).time = .ok (newRows c.frequency (ofKey x.key xs) x) ∧
    (∀ r ∈ newRows c.frequency (ofKey x.key xs) x, r.key = x.key ∧ r.cells.length = x.cells.length) ∧
    (∀ r ∈ expand c.frequency (ofKey x.key xs), r.key = x.key ∧ r.cells.length = x.cells.length) ∧
    (newRows c.frequency (ofKey x.key xs) x).filter (fun r => !r.added) = [x.row] := by
  have hf := hg.frequency
  have hx := hg.times x (by simp)
  refine ⟨?_, ?_, ?_, ?_, ?_⟩
  · rcases last with _ | l
    · rfl
    · rcases hy : (ofKey x.key xs).getLast? with _ | y
      · rw [hy] at hl; simp at hl
      · rw [hy] at hl
        simp only [Option.map_some, Option.some.injEq] at hl
        obtain ⟨h1, h2⟩ := ofKey_mem (List.mem_of_getLast? hy)
        have := (List.pairwise_append.1 hg.chronological).2.2 y h1 x (by simp) h2
        simp only [Option.any_some, decide_eq_false_iff_not]
        omega
  · rcases hy : (ofKey x.key xs).getLast? with _ | y
    · rw [hy] at hl
      simp only [Option.map_none, Option.map_eq_none_iff] at hl
      subst hl
      have ht : ((none : Option (TsRow K S)).getD x.row).time = x.time := rfl
      rw [ht, generateRows_eq _ _ _ _ hf hx.2 hx.1 (Int.le_refl _), gridRows_same _ hf]
      · simp [newRows, hy]
      · rw [Int.sub_self, Int.zero_ediv]
        omega
    · rw [hy] at hl
      rcases last with _ | l
      · simp at hl
      · simp only [Option.map_some, Option.some.injEq] at hl
        obtain ⟨h1, h2⟩ := ofKey_mem (List.mem_of_getLast? hy)
        have h3 := (List.pairwise_append.1 hg.chronological).2.2 y h1 x (by simp) h2
        have h4 := hg.times y (by simp [h1])
        have h5 := hg.memory y (by simp [h1]) x (by simp) h2
        simp only [Option.getD_some, hl]
        rw [generateRows_eq _ _ _ _ hf hx.2 h4.1 h3 h5]
        simp [newRows, hy]
  · intro r hr
    simp only [newRows, List.mem_append, List.mem_singleton] at hr
    rcases hr with hr | rfl
    · rcases hy : (ofKey x.key xs).getLast? with _ | y
      · rw [hy] at hr; simp at hr
      · rw [hy] at hr
        obtain ⟨_, h2, h3, _⟩ := mem_gridRows hr
        exact ⟨h2, by rw [h3]; simp⟩
    · exact ⟨rfl, rfl⟩
  · intro r hr
    obtain ⟨y, hy, h1, h2⟩ := mem_expand hr
    obtain ⟨h3, h4⟩ := ofKey_mem hy
    exact ⟨by rw [h1, h4], by rw [h2]; exact hg.widths y (by simp [h3]) x (by simp) h4⟩
  · simp only [newRows, List.filter_append]
    have : ∀ l : List (TsRow K S), (∀ r ∈ l, r.added = true) → l.filter (fun r => !r.added) = [] := by
      intro l hl
      rw [List.filter_eq_nil_iff]
      intro r hr
      simp [hl r hr]
    rw [this]
    · rfl
    · intro r hr
      rcases hy : (ofKey x.key xs).getLast? with _ | y
      · rw [hy] at hr; simp at hr
      · rw [hy] at hr
        exact (mem_gridRows hr).1

private theorem expand_ofKey [DecidableEq K] (f : Int) (l : List (TsIn K S)) (x : TsIn K S) :
    expand f (l ++ [x]) = expand f l ++ newRows f l x := expand_snoc f l x

/-- Flag, time and key. -/
private def tag (r : TsRow K S) : Bool × Int × K := (r.added, r.time, r.key)

private theorem ff_tag (base : Option (List (Option S))) (rows : List (TsRow K S)) :
    (ff base rows).map tag = rows.map tag := by
  induction rows generalizing base with
  | nil => cases base <;> rfl
  | cons r rs ih =>
    cases base with
    | none => simp only [ff, List.map_cons, ih]
    | some p => simp only [ff, List.map_cons, ih]; rfl

private theorem bf_tag (base : Option (List (Option S))) (rows : List (TsRow K S)) :
    (bf base rows).map tag = rows.map tag := by
  induction rows with
  | nil => rfl
  | cons r rs ih => rw [bf_cons, List.map_cons, ih]; rfl

private theorem keys_of_tag {a b : List (TsRow K S)} (h : a.map tag = b.map tag) (k : K)
    (hb : ∀ r ∈ b, r.key = k) : ∀ r ∈ a, r.key = k := by
  intro r hr
  have : tag r ∈ b.map tag := by rw [← h]; exact List.mem_map_of_mem hr
  obtain ⟨s, hs, he⟩ := List.mem_map.1 this
  have h2 : s.key = r.key := congrArg (fun p : Bool × Int × K => p.2.2) he
  rw [← h2]
  exact hb s hs

/-- The original rows among the rows output, in order. -/
def originals (rows : List (TsRow K S)) : List (Int × K) :=
  (rows.filter fun r => !r.added).map fun r => (r.time, r.key)

private theorem originals_tag {a b : List (TsRow K S)} (h : a.map tag = b.map tag) : originals a = originals b := by
  have key : ∀ l : List (TsRow K S), originals l = ((l.map tag).filter (fun p => !p.1)).map (·.2) := by
    intro l
    unfold originals
    rw [List.filter_map, List.map_map]
    rfl
  rw [key, key, h]

private theorem originals_append (a b : List (TsRow K S)) : originals (a ++ b) = originals a ++ originals b := by
  simp [originals]

/-! ### Forward fill -/

private theorem forward_run [LinearOrder K] (c : TsConfig K S) (hc : c.strategy = .forward) (xs : List (TsIn K S))
    (hg : GoodSeries c.frequency c.space xs) :
    ∃ outs t, (tsImputerXf c).execAll .new xs = ⟨outs, none, t⟩ ∧
      (∀ k, outOfKey k outs = ff none (expand c.frequency (ofKey k xs)) ∧
        (t.last.find? k).map (·.time) = (ofKey k xs).getLast?.map (·.time) ∧
        t.last.find? k = (outOfKey k outs).getLast? ∧ t.buffer.find? k = none) ∧
      originals outs = xs.map fun x => (x.time, x.key) := by
  refine run_all c (fun k l last buf outs => outs = ff none (expand c.frequency l) ∧
      last.map (·.time) = l.getLast?.map (·.time) ∧ last = outs.getLast? ∧ buf = none)
    (fun xs outs => originals outs = xs.map fun x => (x.time, x.key)) (fun _ => True) (fun _ _ _ => trivial)
    (fun k => ⟨rfl, rfl, rfl, rfl⟩) rfl ?_ xs hg trivial
  intro xs x t outs hg _ ⟨p1, p2, p3, p4⟩ hG
  obtain ⟨s1, s2, s3, s4, s5⟩ := step_facts c xs x hg _ p2
  have hE := expand_ofKey c.frequency (ofKey x.key xs) x
  have hw : ((t.last.find? x.key).getD x.row).cells.length = x.cells.length := by
    rcases hl : t.last.find? x.key with _ | l
    · rfl
    · rw [p3] at hl
      have hm := List.mem_of_getLast? hl
      rw [p1] at hm
      exact ff_widths x.cells.length none _ (by simp) (fun r hr => (s4 r hr).2) l hm
  have hfill := fillRows_forward c hc x.key x.cells.length _ _ hw (fun r hr => (s3 r hr).2)
  -- the rows emitted
  have hos : ff (some ((t.last.find? x.key).getD x.row).cells) (newRows c.frequency (ofKey x.key xs) x)
      = ff (match (ff none (expand c.frequency (ofKey x.key xs))).getLast? with
        | none => none | some r => some r.cells) (newRows c.frequency (ofKey x.key xs) x) := by
    rw [← p1, ← p3]
    rcases hl : t.last.find? x.key with _ | l
    · rw [hl] at p2
      simp only [Option.map_none] at p2
      have hn := Option.map_eq_none_iff.1 p2.symm
      simp only [newRows, hn, Option.getD_none, List.nil_append, ff, TsIn.row]
      rw [merge_self]
    · rfl
  have hexec : t.exec c x = ⟨ff (some ((t.last.find? x.key).getD x.row).cells)
      (newRows c.frequency (ofKey x.key xs) x), none,
      { t with last := t.last.set x.key (((ff (some ((t.last.find? x.key).getD x.row).cells)
        (newRows c.frequency (ofKey x.key xs) x)).getLast?).getD ((t.last.find? x.key).getD x.row)) }⟩ := by
    unfold TsImputer.exec
    simp only [s1, hc, Bool.false_eq_true, if_false]
    unfold TsImputer.fill
    simp only [s2, hfill]
  refine ⟨_, _, hexec, ?_, ?_, ⟨?_, ?_, ?_, p4⟩, ?_⟩
  · exact keys_of_tag (ff_tag _ _) x.key (fun r hr => (s3 r hr).1)
  · intro j hj
    exact ⟨OMap.find?_set_other _ _ _ _ hj, rfl⟩
  · rw [hE, ff_append, p1, hos]
    rcases (ff none (expand c.frequency (ofKey x.key xs))).getLast? with _ | r <;> rfl
  · simp only
    rw [OMap.find?_set_self]
    have hlen := ff_tag (some ((t.last.find? x.key).getD x.row).cells) (newRows c.frequency (ofKey x.key xs) x)
    have h2 := congrArg (fun l => l.getLast?) hlen
    simp only [List.getLast?_map] at h2
    have h3 : (newRows c.frequency (ofKey x.key xs) x).getLast? = some x.row := by
      simp only [newRows, List.getLast?_append, List.getLast?_singleton]
      rfl
    rw [h3] at h2
    rcases hr : (ff (some ((t.last.find? x.key).getD x.row).cells)
      (newRows c.frequency (ofKey x.key xs) x)).getLast? with _ | r
    · rw [hr] at h2; simp at h2
    · rw [hr] at h2
      simp only [Option.map_some, Option.some.injEq] at h2
      have ht : r.time = x.time := congrArg (fun p : Bool × Int × K => p.2.1) h2
      simp [ht]
  · simp only
    rw [OMap.find?_set_self, List.getLast?_append]
    have hne : ff (some ((t.last.find? x.key).getD x.row).cells) (newRows c.frequency (ofKey x.key xs) x) ≠ [] := by
      intro h
      have := ff_length (some ((t.last.find? x.key).getD x.row).cells) (newRows c.frequency (ofKey x.key xs) x)
      rw [h] at this
      simp [newRows] at this
    rcases hr : (ff (some ((t.last.find? x.key).getD x.row).cells)
      (newRows c.frequency (ofKey x.key xs) x)).getLast? with _ | r
    · exact absurd (List.getLast?_eq_none_iff.1 hr) hne
    · simp
  · rw [originals_append, hG, originals_tag (ff_tag _ _), List.map_append]
    congr 1
    unfold originals
    rw [s5]
    rfl

/-! ### Backward fill -/

private theorem back_step [LinearOrder K] (c : TsConfig K S) (t : TsImputer K S) (x : TsIn K S)
    (pre : List (TsRow K S)) (w : Nat)
    (hgen : generateRows c.frequency c.space x ((t.last.find? x.key).getD x.row).time = .ok (pre ++ [x.row]))
    (hw : ∀ r ∈ (t.buffer.find? x.key).getD [] ++ (pre ++ [x.row]), r.cells.length = w) :
    ∃ r : TsRow K S, r.time = x.time ∧
      t.back c x = ⟨(bf none ((t.buffer.find? x.key).getD [] ++ (pre ++ [x.row]))).takeWhile (fun r => noNulls r.cells),
        none, ⟨t.last.set x.key r, t.buffer.set x.key
          ((bf none ((t.buffer.find? x.key).getD [] ++ (pre ++ [x.row]))).drop
            ((bf none ((t.buffer.find? x.key).getD [] ++ (pre ++ [x.row]))).takeWhile
              (fun r => noNulls r.cells)).length)⟩⟩ := by
  generalize hB : (t.buffer.find? x.key).getD [] = b at *
  have hs := backRows_self w (b ++ pre) x.row (by rw [List.append_assoc]; exact hw)
  have htag := bf_tag none (b ++ (pre ++ [x.row]))
  rw [List.append_assoc] at hs
  unfold TsImputer.back
  simp only [hgen, hB]
  have hrev : (b ++ (pre ++ [x.row])).reverse = x.row :: (b ++ pre).reverse := by simp
  rw [hrev]
  simp only
  rw [← hrev, hs]
  rcases hr : (bf none (b ++ (pre ++ [x.row]))).reverse with _ | ⟨y, ys⟩
  · exfalso
    have := congrArg List.length hr
    rw [List.length_reverse, bf_length] at this
    simp at this
  · refine ⟨y, ?_, ?_⟩
    · have h1 := congrArg (fun l => l.reverse.head?) htag
      simp only [← List.map_reverse, hr, hrev, List.map_cons, List.head?_cons, Option.some.injEq] at h1
      exact congrArg (fun p : Bool × Int × K => p.2.1) h1
    · simp only
      rw [← hr, List.reverse_reverse]

private theorem takeWhile_all {A : Type} (p : A → Bool) (l : List A) : ∀ a ∈ l.takeWhile p, p a = true := by
  induction l with
  | nil => simp
  | cons a l ih =>
    intro b hb
    rw [List.takeWhile_cons] at hb
    split at hb
    · rcases List.mem_cons.1 hb with rfl | hb
      · assumption
      · exact ih b hb
    · simp at hb

private theorem take_drop_takeWhile {A : Type} (p : A → Bool) (l : List A) :
    l.takeWhile p ++ l.drop (l.takeWhile p).length = l := by
  induction l with
  | nil => rfl
  | cons a l ih =>
    rw [List.takeWhile_cons]
    split
    · simp only [List.cons_append, List.length_cons, List.drop_succ_cons, ih]
    · rfl

private theorem backward_run [LinearOrder K] (c : TsConfig K S) (hc : c.strategy = .backward) (xs : List (TsIn K S))
    (hg : GoodSeries c.frequency c.space xs) :
    ∃ outs t, (tsImputerXf c).execAll .new xs = ⟨outs, none, t⟩ ∧
      (∀ k, outOfKey k outs ++ (t.buffer.find? k).getD [] = bf none (expand c.frequency (ofKey k xs)) ∧
        (∀ r ∈ outOfKey k outs, noNulls r.cells = true) ∧
        (∀ r, ((t.buffer.find? k).getD []).head? = some r → noNulls r.cells = false) ∧
        (t.last.find? k).map (·.time) = (ofKey k xs).getLast?.map (·.time)) ∧ True := by
  refine run_all c (fun k l last buf outs => outs ++ buf.getD [] = bf none (expand c.frequency l) ∧
      (∀ r ∈ outs, noNulls r.cells = true) ∧ (∀ r, (buf.getD []).head? = some r → noNulls r.cells = false) ∧
      last.map (·.time) = l.getLast?.map (·.time))
    (fun _ _ => True) (fun _ => True) (fun _ _ _ => trivial) (fun k => ⟨rfl, by simp, by simp, rfl⟩) trivial ?_ xs hg trivial
  intro xs x t outs hg _ ⟨p1, p2, p3, p4⟩ _
  obtain ⟨s1, s2, s3, s4, _⟩ := step_facts c xs x hg _ p4
  have hE := expand_ofKey c.frequency (ofKey x.key xs) x
  generalize hEe : expand c.frequency (ofKey x.key xs) = e at *
  generalize hOo : outOfKey x.key outs = o at *
  -- split the series where the output ends
  have hlen : o.length ≤ e.length := by
    have := congrArg List.length p1
    rw [List.length_append, bf_length] at this
    omega
  have hsplit := List.take_append_drop o.length e
  have hb := bf_append none (e.take o.length) (e.drop o.length)
  rw [hsplit, ← p1] at hb
  have hob := List.append_inj hb (by rw [bf_length, List.length_take]; omega)
  have hw : ∀ r ∈ bf none (e.drop o.length), r.cells.length = x.cells.length :=
    (bf_widths x.cells.length none _ (by simp) (fun r hr => (s4 r (List.mem_of_mem_drop hr)).2)).1
  have hn : ∃ pre, newRows c.frequency (ofKey x.key xs) x = pre ++ [x.row] := ⟨_, rfl⟩
  obtain ⟨pre, hpre⟩ := hn
  rw [hpre] at s2 s3 hE
  obtain ⟨r, hr, hexec⟩ := back_step c t x pre x.cells.length s2 (by
    intro r hr
    rw [hob.2] at hr
    rcases List.mem_append.1 hr with h | h
    · exact hw r h
    · exact (s3 r h).2)
  have hext := bf_extend x.cells.length (e.take o.length) (e.drop o.length) (pre ++ [x.row])
    (fun r hr => (s4 r (List.mem_of_mem_take hr)).2) (fun r hr => (s4 r (List.mem_of_mem_drop hr)).2)
    (fun r hr => (s3 r hr).2) (by rw [← hob.1]; exact p2)
  rw [hsplit, ← hob.1, ← hob.2] at hext
  generalize hBb : bf none ((t.buffer.find? x.key).getD [] ++ (pre ++ [x.row])) = b at *
  have hall := take_drop_takeWhile (fun r : TsRow K S => noNulls r.cells) b
  have hex : t.exec c x = t.back c x := by
    unfold TsImputer.exec
    simp only [s1, hc, Bool.false_eq_true, if_false]
  refine ⟨_, _, by rw [hex, hexec], ?_, ?_, ⟨?_, ?_, ?_, ?_⟩, trivial⟩
  · intro q hq
    have hm : q ∈ b := (List.takeWhile_sublist _).subset hq
    have hk : ∀ r ∈ e ++ (pre ++ [x.row]), r.key = x.key := by
      intro r hr
      rcases List.mem_append.1 hr with h | h
      · exact (s4 r h).1
      · exact (s3 r h).1
    exact keys_of_tag (bf_tag none _) x.key hk q (by rw [hext]; simp [hm])
  · intro j hj
    exact ⟨OMap.find?_set_other _ _ _ _ hj, OMap.find?_set_other _ _ _ _ hj⟩
  · simp only
    rw [OMap.find?_set_self, hE, Option.getD_some, List.append_assoc, hall, hext]
  · intro q hq
    rcases List.mem_append.1 hq with h | h
    · exact p2 q h
    · exact takeWhile_all _ _ q h
  · simp only
    rw [OMap.find?_set_self, Option.getD_some]
    intro q hq
    clear hall hext hexec hBb
    induction b with
    | nil => simp at hq
    | cons a b ih =>
      rw [List.takeWhile_cons] at hq
      split at hq
      · exact ih (by simpa using hq)
      · rename_i h
        simp only [List.length_nil, List.drop_zero, List.head?_cons, Option.some.injEq] at hq
        subst hq
        simpa using h
  · simp only
    rw [OMap.find?_set_self]
    simp [hr]

/-! ### Median -/

/-- The cells of one row with the nulls of the supported columns replaced. -/
private def med (types : List UInt32) (m : Option (List S)) (cells : List (Option S)) : List (Option S) :=
  cells.mapIdx fun i cell =>
    cell.or (if supportsMedian (types.getD i 0) then m.bind (fun l => l[i]?) else none)

private theorem medianCells_eq (suppress : Bool) (types : List UInt32) (m : Option (List S)) (cells : List (Option S))
    (h1 : cells.length ≤ types.length) (h2 : ∀ l, m = some l → cells.length ≤ l.length)
    (h3 : m = none → suppress = true) : medianCells suppress types m cells = .ok (med types m cells) := by
  induction cells generalizing types m with
  | nil => cases types <;> rfl
  | cons cell cells ih =>
    cases types with
    | nil => simp at h1
    | cons ty types =>
      have ih := ih types (m.map List.tail) (by simpa using h1)
        (by
          intro l hl
          cases m with
          | none => simp at hl
          | some l' =>
            have := h2 l' rfl
            simp only [Option.map_some, Option.some.injEq] at hl
            subst hl
            simp only [List.length_cons] at this
            rw [List.length_tail]
            omega)
        (by
          intro hm
          exact h3 (Option.map_eq_none_iff.1 hm))
      have htail : med (ty :: types) m (cell :: cells)
          = cell.or (if supportsMedian ty then m.bind (fun l => l[0]?) else none)
            :: med types (m.map List.tail) cells := by
        unfold med
        rw [List.mapIdx_cons]
        congr 1
        apply congrArg (fun f => List.mapIdx f cells)
        funext i c
        cases m with
        | none => rfl
        | some l =>
          cases l with
          | nil => simp
          | cons a l => simp
      rw [htail]
      unfold medianCells
      by_cases hs : supportsMedian ty = false
      · simp only [hs, if_true, ih]
        simp
      · simp only [Bool.not_eq_false] at hs
        simp only [hs, Bool.true_eq_false, if_false, if_true]
        cases cell with
        | some v => simp only [ih]; rfl
        | none =>
          cases m with
          | none =>
            have hs' := h3 rfl
            subst hs'
            simp only [if_true, ih]
            rfl
          | some l =>
            cases l with
            | nil => have := h2 [] rfl; simp at this
            | cons a l => simp only [ih]; rfl

private theorem fillRows_median [LinearOrder K] (c : TsConfig K S) (hc : c.strategy = .median) (key : K)
    (last : TsRow K S) (rows : List (TsRow K S))
    (hr : ∀ r ∈ rows, medianCells c.suppress c.types (c.medians.find? key) r.cells
      = .ok (med c.types (c.medians.find? key) r.cells)) :
    fillRows c key last rows
      = (.ok (rows.map fun r => { r with cells := med c.types (c.medians.find? key) r.cells }),
        ((rows.map fun r => { r with cells := med c.types (c.medians.find? key) r.cells }).getLast?).getD last) := by
  induction rows generalizing last with
  | nil => rfl
  | cons r rs ih =>
    have h1 := hr r (by simp)
    have := ih { r with cells := med c.types (c.medians.find? key) r.cells } (fun x hx => hr x (by simp [hx]))
    unfold fillRows
    simp only [hc, reduceCtorEq, if_false, h1, this, List.map_cons]
    rcases rs with _ | ⟨x, l⟩
    · simp
    · simp only [List.map_cons, List.getLast?_cons_cons]
      obtain ⟨y, hy⟩ : ∃ y, ({ x with cells := med c.types (c.medians.find? key) x.cells }
          :: l.map fun r => { r with cells := med c.types (c.medians.find? key) r.cells }
          : List (TsRow K S)).getLast? = some y := ⟨_, List.getLast?_cons⟩
      rw [hy]
      rfl

/-- The row of the median strategy. -/
private def medRow [LinearOrder K] (c : TsConfig K S) (k : K) (r : TsRow K S) : TsRow K S :=
  { r with cells := med c.types (c.medians.find? k) r.cells }

/-- What the median strategy needs: types and medians for every column; medians for every key, unless errors are
suppressed. -/
structure MedianReady [LinearOrder K] (c : TsConfig K S) (xs : List (TsIn K S)) : Prop where
  types : ∀ x ∈ xs, x.cells.length ≤ c.types.length
  medians : ∀ x ∈ xs, ∀ m, c.medians.find? x.key = some m → x.cells.length ≤ m.length
  known : ∀ x ∈ xs, c.medians.find? x.key = none → c.suppress = true

private theorem median_run [LinearOrder K] (c : TsConfig K S) (hc : c.strategy = .median) (xs : List (TsIn K S))
    (hg : GoodSeries c.frequency c.space xs) (hm : MedianReady c xs) :
    ∃ outs t, (tsImputerXf c).execAll .new xs = ⟨outs, none, t⟩ ∧
      (∀ k, outOfKey k outs = (expand c.frequency (ofKey k xs)).map (medRow c k) ∧
        (t.last.find? k).map (·.time) = (ofKey k xs).getLast?.map (·.time) ∧ t.buffer.find? k = none) ∧
      originals outs = xs.map fun x => (x.time, x.key) := by
  refine run_all c (fun k l last buf outs => outs = (expand c.frequency l).map (medRow c k) ∧
      last.map (·.time) = l.getLast?.map (·.time) ∧ buf = none)
    (fun xs outs => originals outs = xs.map fun x => (x.time, x.key)) (MedianReady c)
    (fun xs x h => ⟨fun y hy => h.types y (by simp [hy]), fun y hy => h.medians y (by simp [hy]),
      fun y hy => h.known y (by simp [hy])⟩)
    (fun k => ⟨rfl, rfl, rfl⟩) rfl ?_ xs hg hm
  intro xs x t outs hg hm ⟨p1, p2, p3⟩ hG
  obtain ⟨s1, s2, s3, s4, s5⟩ := step_facts c xs x hg _ p2
  have hE := expand_ofKey c.frequency (ofKey x.key xs) x
  have hfill := fillRows_median c hc x.key ((t.last.find? x.key).getD x.row)
    (newRows c.frequency (ofKey x.key xs) x) (fun r hr => medianCells_eq _ _ _ _
      (by rw [(s3 r hr).2]; exact hm.types x (by simp))
      (fun l hl => by rw [(s3 r hr).2]; exact hm.medians x (by simp) l hl)
      (fun h => hm.known x (by simp) h))
  have hexec : t.exec c x = ⟨(newRows c.frequency (ofKey x.key xs) x).map (medRow c x.key), none,
      { t with last := t.last.set x.key ((((newRows c.frequency (ofKey x.key xs) x).map
        (medRow c x.key)).getLast?).getD ((t.last.find? x.key).getD x.row)) }⟩ := by
    unfold TsImputer.exec
    simp only [s1, hc, Bool.false_eq_true, if_false]
    unfold TsImputer.fill
    simp only [s2, hfill]
    rfl
  have htag : ∀ l : List (TsRow K S), (l.map (medRow c x.key)).map tag = l.map tag := by
    intro l
    rw [List.map_map]
    rfl
  refine ⟨_, _, hexec, ?_, ?_, ⟨?_, ?_, p3⟩, ?_⟩
  · exact keys_of_tag (htag _) x.key (fun r hr => (s3 r hr).1)
  · intro j hj
    exact ⟨OMap.find?_set_other _ _ _ _ hj, rfl⟩
  · rw [hE, List.map_append, p1]
  · simp only
    rw [OMap.find?_set_self]
    simp [newRows, medRow, TsIn.row]
  · rw [originals_append, hG, originals_tag (htag _), List.map_append]
    congr 1
    unfold originals
    rw [s5]
    rfl

/-! ### C35, C36 -/

private theorem OMap.entries_nil [LinearOrder K] {V : Type} (m : OMap K V) (h : ∀ k, m.find? k = none) :
    m.entries = [] := by
  rcases he : m.entries with _ | ⟨⟨k, v⟩, l⟩
  · rfl
  · have := m.find?_of_mem k v (by rw [he]; simp)
    rw [h k] at this
    cases this

private theorem flush_none [LinearOrder K] (c : TsConfig K S) (xs : List (TsIn K S)) (outs : List (TsRow K S))
    (t : TsImputer K S) (h1 : (tsImputerXf c).execAll .new xs = ⟨outs, none, t⟩) (h : ∀ k, t.buffer.find? k = none) :
    (tsImputerXf c).runAll .new xs = ⟨outs, none, .new⟩ := by
  unfold Xf.runAll
  rw [h1]
  show (match TsImputer.flush t with
    | ⟨outs', e, t''⟩ => (⟨outs ++ outs', e, t''⟩ : Run _ _)) = _
  unfold TsImputer.flush
  rw [OMap.entries_nil _ h]
  simp

private theorem expand_width [LinearOrder K] {f : Int} {space : Nat} {xs : List (TsIn K S)}
    (hg : GoodSeries f space xs) (k : K) : ∃ w, ∀ r ∈ expand f (ofKey k xs), r.cells.length = w := by
  rcases h : ofKey k xs with _ | ⟨x, l⟩
  · exact ⟨0, by simp [expand]⟩
  · refine ⟨x.cells.length, fun r hr => ?_⟩
    rw [← h] at hr
    obtain ⟨y, hy, _, h2⟩ := mem_expand hr
    obtain ⟨h3, h4⟩ := ofKey_mem hy
    obtain ⟨h5, h6⟩ := ofKey_mem (k := k) (xs := xs) (y := x) (by rw [h]; simp)
    rw [h2]
    exact hg.widths y h3 x h5 (by rw [h4, h6])

/-- **C35, C36 (forward fill).**  All the output comes from `execute`, none from `flush`; the original rows appear in the
order of the input; for every key, the output is the series with the gaps filled on the frequency grid, every cell
holding the latest value of its column. -/
theorem C36_forward [LinearOrder K] (c : TsConfig K S) (hc : c.strategy = .forward) (xs : List (TsIn K S))
    (hg : GoodSeries c.frequency c.space xs) :
    ∃ outs t, (tsImputerXf c).execAll .new xs = ⟨outs, none, t⟩ ∧
      (tsImputerXf c).runAll .new xs = ⟨outs, none, .new⟩ ∧
      (originals outs = xs.map fun x => (x.time, x.key)) ∧
      ∀ k, Filled (fun col i v => LatestValue none (column col (expand c.frequency (ofKey k xs))) i v)
        (expand c.frequency (ofKey k xs)) (outOfKey k outs) := by
  obtain ⟨outs, t, h1, h2, h3⟩ := forward_run c hc xs hg
  refine ⟨outs, t, h1, flush_none c xs outs t h1 (fun k => (h2 k).2.2.2), h3, fun k => ?_⟩
  obtain ⟨w, hw⟩ := expand_width hg k
  rw [(h2 k).1]
  exact ff_filled w _ hw

/-- **C35, C36 (backward fill).**  For every key, the output of `execute` followed by that of `flush` is the series with
the gaps filled on the frequency grid, every cell holding the next value of its column.  `execute` emits only rows
without nulls; `flush` starts, for each key, with a row that has a null. -/
theorem C36_backward [LinearOrder K] (c : TsConfig K S) (hc : c.strategy = .backward) (xs : List (TsIn K S))
    (hg : GoodSeries c.frequency c.space xs) :
    ∃ outs rest t, (tsImputerXf c).execAll .new xs = ⟨outs, none, t⟩ ∧
      (tsImputerXf c).runAll .new xs = ⟨outs ++ rest, none, .new⟩ ∧
      ∀ k, Filled (fun col i v => NextValue none (column col (expand c.frequency (ofKey k xs))) i v)
          (expand c.frequency (ofKey k xs)) (outOfKey k (outs ++ rest)) ∧
        (∀ r ∈ outOfKey k outs, ∀ cell ∈ r.cells, cell ≠ none) ∧
        (∀ r, (outOfKey k rest).head? = some r → none ∈ r.cells) := by
  obtain ⟨outs, t, h1, h2, _⟩ := backward_run c hc xs hg
  have hrest : ∀ k, outOfKey k (t.buffer.entries.flatMap (·.2)) = (t.buffer.find? k).getD [] := by
    intro k
    refine OMap.filter_flatMap t.buffer (·.key) k ?_
    intro e he r hr
    have hf := t.buffer.find?_of_mem e.1 e.2 he
    obtain ⟨p1, _⟩ := h2 e.1
    rw [hf, Option.getD_some] at p1
    refine keys_of_tag (bf_tag none _) e.1 ?_ r (by rw [← p1]; simp [hr])
    intro q hq
    obtain ⟨x, hx, h3, _⟩ := mem_expand hq
    rw [h3]
    exact (ofKey_mem hx).2
  refine ⟨outs, t.buffer.entries.flatMap (·.2), t, h1, ?_, fun k => ?_⟩
  · unfold Xf.runAll
    rw [h1]
    rfl
  · obtain ⟨w, hw⟩ := expand_width hg k
    obtain ⟨p1, p2, p3, _⟩ := h2 k
    have ho : outOfKey k (outs ++ t.buffer.entries.flatMap (·.2)) = bf none (expand c.frequency (ofKey k xs)) := by
      rw [← p1, ← hrest k]
      simp [outOfKey]
    refine ⟨?_, ?_, ?_⟩
    · rw [ho]
      exact bf_filled w _ hw
    · intro r hr cell hcell hn
      have := List.all_eq_true.1 (p2 r hr) cell hcell
      rw [hn] at this
      cases this
    · intro r hr
      rw [hrest k] at hr
      have := p3 r hr
      unfold noNulls at this
      rw [List.all_eq_false] at this
      obtain ⟨cell, h4, h5⟩ := this
      cases cell with
      | none => exact h4
      | some v => simp at h5

private theorem medianCells_unknown (types : List UInt32) (cells : List (Option S)) (h1 : cells.length ≤ types.length) :
    (medianCells false types none cells = .ok cells ∨ medianCells false types none cells = .error .runtimeError) ∧
    ((∃ (col : Nat) (ty : UInt32), cells[col]? = some none ∧ types[col]? = some ty ∧ supportsMedian ty = true) →
      medianCells false types none cells = .error .runtimeError) := by
  induction cells generalizing types with
  | nil =>
    refine ⟨.inl (by cases types <;> rfl), ?_⟩
    rintro ⟨col, ty, h, _⟩
    simp at h
  | cons cell cells ih =>
    cases types with
    | nil => simp at h1
    | cons ty types =>
      obtain ⟨i1, i2⟩ := ih types (by simpa using h1)
      by_cases hbad : supportsMedian ty = true ∧ cell = none
      · obtain ⟨hs, rfl⟩ := hbad
        have : medianCells false (ty :: types) none ((none : Option S) :: cells) = .error .runtimeError := by
          unfold medianCells
          simp [hs]
        exact ⟨.inr this, fun _ => this⟩
      · have hstep : medianCells false (ty :: types) none (cell :: cells)
            = match medianCells false types none cells with
              | .error e => .error e
              | .ok cells => .ok (cell :: cells) := by
          rw [medianCells.eq_def]
          by_cases hs : supportsMedian ty = false
          · simp only [hs, if_true, Option.map_none]
            cases medianCells false types none cells <;> rfl
          · simp only [Bool.not_eq_false] at hs
            cases cell with
            | none => exact absurd ⟨hs, rfl⟩ hbad
            | some v =>
              simp only [hs, Bool.true_eq_false, if_false, Option.map_none]
              cases medianCells false types none cells <;> rfl
        rw [hstep]
        refine ⟨?_, ?_⟩
        · rcases i1 with h | h <;> rw [h] <;> simp
        · rintro ⟨col, ty', h2, h3, h4⟩
          cases col with
          | zero =>
            simp only [List.getElem?_cons_zero, Option.some.injEq] at h2 h3
            subst h2 h3
            exact absurd ⟨h4, rfl⟩ hbad
          | succ col =>
            rw [i2 ⟨col, ty', by simpa using h2, by simpa using h3, h4⟩]

/-- **C36 (median, no value known).**  A row of a key the medians are not known for, with a null cell in a column of a
floating point type, is refused with a runtime error unless errors are suppressed; nothing is output for it and the rows
before are output as always. -/
theorem C36_median_unknown [LinearOrder K] (c : TsConfig K S) (hc : c.strategy = .median) (hs : c.suppress = false)
    (xs : List (TsIn K S)) (x : TsIn K S) (hg : GoodSeries c.frequency c.space (xs ++ [x])) (hm : MedianReady c xs)
    (hx : x.cells.length ≤ c.types.length) (hk : c.medians.find? x.key = none)
    (hnull : ∃ (col : Nat) (ty : UInt32), x.cells[col]? = some none ∧ c.types[col]? = some ty ∧ supportsMedian ty = true) :
    ((tsImputerXf c).execAll .new (xs ++ [x])).err = some .runtimeError ∧
    ((tsImputerXf c).execAll .new (xs ++ [x])).outs = ((tsImputerXf c).execAll .new xs).outs := by
  have hg' : GoodSeries c.frequency c.space xs :=
    ⟨hg.frequency, fun y hy => hg.times y (by simp [hy]), (List.pairwise_append.1 hg.chronological).1,
      fun y hy z hz => hg.widths y (by simp [hy]) z (by simp [hz]),
      fun y hy z hz => hg.memory y (by simp [hy]) z (by simp [hz])⟩
  obtain ⟨outs, t, h1, h2, -⟩ := median_run c hc xs hg' hm
  obtain ⟨s1, s2, s3, -, -⟩ := step_facts c xs x hg _ (h2 x.key).2.1
  have hrows : ∀ (rows : List (TsRow K S)) (last : TsRow K S), (∀ r ∈ rows, r.cells.length ≤ c.types.length) →
      (∃ r ∈ rows, ∃ (col : Nat) (ty : UInt32), r.cells[col]? = some none ∧ c.types[col]? = some ty ∧ supportsMedian ty = true) →
      ∃ l, fillRows c x.key last rows = (.error .runtimeError, l) := by
    intro rows
    induction rows with
    | nil => rintro _ _ ⟨r, hr, _⟩; simp at hr
    | cons r rs ih =>
      intro last hl he
      obtain ⟨m1, m2⟩ := medianCells_unknown c.types r.cells (hl r (by simp))
      unfold fillRows
      simp only [hc, reduceCtorEq, if_false, hk, hs]
      rcases m1 with m1 | m1
      · obtain ⟨l, hl'⟩ := ih { r with cells := r.cells } (fun y hy => hl y (by simp [hy])) (by
          obtain ⟨r', hr', hb⟩ := he
          rcases List.mem_cons.1 hr' with rfl | h
          · rw [m2 hb] at m1; cases m1
          · exact ⟨r', h, hb⟩)
        rw [m1]
        simp only [hl']
        exact ⟨_, rfl⟩
      · rw [m1]
        exact ⟨_, rfl⟩
  obtain ⟨l, hfill⟩ := hrows (newRows c.frequency (ofKey x.key xs) x) ((t.last.find? x.key).getD x.row)
    (fun r hr => by rw [(s3 r hr).2]; exact hx) ⟨x.row, by simp [newRows], hnull⟩
  have hexec : t.exec c x = ⟨[], some .runtimeError, { t with last := t.last.set x.key l }⟩ := by
    unfold TsImputer.exec
    simp only [s1, hc, Bool.false_eq_true, if_false]
    unfold TsImputer.fill
    simp only [s2, hfill]
  have hone : (tsImputerXf c).execAll t [x] = ⟨[], some .runtimeError, { t with last := t.last.set x.key l }⟩ := by
    have : (tsImputerXf c).exec t x = t.exec c x := rfl
    simp [Xf.execAll, this, hexec]
  rw [Xf.execAll_append, h1]
  simp only [hone, List.append_nil, and_self]

/-- **C35, C36 (median).**  Every null cell of a column of a floating point type is replaced by the value given for that key and
column (if any); all other cells are kept. -/
theorem C36_median [LinearOrder K] (c : TsConfig K S) (hc : c.strategy = .median) (xs : List (TsIn K S))
    (hg : GoodSeries c.frequency c.space xs) (hm : MedianReady c xs) :
    ∃ outs t, (tsImputerXf c).execAll .new xs = ⟨outs, none, t⟩ ∧
      (tsImputerXf c).runAll .new xs = ⟨outs, none, .new⟩ ∧
      (originals outs = xs.map fun x => (x.time, x.key)) ∧
      ∀ k, Filled (fun col i v => ∃ e, (expand c.frequency (ofKey k xs))[i]? = some e ∧
          (e.cells[col]? = some (some v) ∨ (e.cells[col]? = some none ∧
            (∃ ty, c.types[col]? = some ty ∧ supportsMedian ty = true) ∧
            ∃ m, c.medians.find? k = some m ∧ m[col]? = some v)))
        (expand c.frequency (ofKey k xs)) (outOfKey k outs) := by
  obtain ⟨outs, t, h1, h2, h3⟩ := median_run c hc xs hg hm
  refine ⟨outs, t, h1, flush_none c xs outs t h1 (fun k => (h2 k).2.2), h3, fun k => ?_⟩
  rw [(h2 k).1]
  refine ⟨by simp, ?_, ?_⟩
  · intro i e r he hr
    rw [List.getElem?_map, he] at hr
    simp only [Option.map_some, Option.some.injEq] at hr
    subst hr
    exact ⟨rfl, rfl, rfl, by simp [medRow, med]⟩
  · intro i col v r hr
    rw [List.getElem?_map] at hr
    rcases he : (expand c.frequency (ofKey k xs))[i]? with _ | e
    · rw [he] at hr; simp at hr
    · rw [he] at hr
      simp only [Option.map_some, Option.some.injEq] at hr
      subst hr
      have htypes : ∀ cell, e.cells[col]? = some cell → ∃ ty, c.types[col]? = some ty := by
        intro cell hcell
        obtain ⟨x, hx, _, h5⟩ := mem_expand (List.mem_of_getElem? he)
        have h6 := hm.types x (ofKey_mem hx).1
        have h7 := (List.getElem?_eq_some_iff.1 hcell).1
        exact ⟨c.types[col]'(by omega), List.getElem?_eq_getElem _⟩
      simp only [medRow, med, List.getElem?_mapIdx, Option.some.injEq, exists_eq_left']
      rcases hcell : e.cells[col]? with _ | _ | u
      · simp
      · obtain ⟨ty, hty⟩ := htypes _ hcell
        simp only [Option.map_some, Option.none_or, Option.some.injEq, List.getD_eq_getElem?_getD, hty,
          Option.getD_some, reduceCtorEq, true_and, false_or]
        by_cases hsm : supportsMedian ty = true
        · simp only [hsm, if_true, exists_eq_left']
          rcases c.medians.find? k with _ | m
          · simp
          · simp
        · simp [hsm]
      · simp

/-- The values in original rows are kept by forward fill. -/
theorem LatestValue.self {xs : List (Option S)} {i : Nat} {v : S} (h : xs[i]? = some (some v)) (d : Option S) :
    LatestValue d xs i v := .inl ⟨i, Nat.le_refl _, h, fun k h1 h2 => by omega⟩

/-- The values in original rows are kept by backward fill. -/
theorem NextValue.self {xs : List (Option S)} {i : Nat} {v : S} (h : xs[i]? = some (some v)) (d : Option S) :
    NextValue d xs i v := .inl ⟨i, Nat.le_refl _, h, fun k h1 h2 => by omega⟩

/-- **C35 (order).**  A row earlier than the last one of its key throws, produces nothing and changes nothing. -/
theorem C35_out_of_order [LinearOrder K] (c : TsConfig K S) (hc : c.strategy = .forward ∨ c.strategy = .backward)
    (xs : List (TsIn K S)) (x y : TsIn K S) (hg : GoodSeries c.frequency c.space xs) (hy : y ∈ xs)
    (hk : x.key = y.key) (hlt : x.time < y.time) :
    ∃ outs t, (tsImputerXf c).execAll .new xs = ⟨outs, none, t⟩ ∧ t.exec c x = ⟨[], some .runtimeError, t⟩ := by
  obtain ⟨outs, t, h1, h2⟩ : ∃ outs t, (tsImputerXf c).execAll .new xs = ⟨outs, none, t⟩ ∧
      ∀ k, (t.last.find? k).map (·.time) = (ofKey k xs).getLast?.map (·.time) := by
    rcases hc with hc | hc
    · obtain ⟨outs, t, h1, h2, _⟩ := forward_run c hc xs hg
      exact ⟨outs, t, h1, fun k => (h2 k).2.1⟩
    · obtain ⟨outs, t, h1, h2, _⟩ := backward_run c hc xs hg
      exact ⟨outs, t, h1, fun k => (h2 k).2.2.2⟩
  refine ⟨outs, t, h1, ?_⟩
  have hlast : ∃ z, (ofKey x.key xs).getLast? = some z ∧ y.time ≤ z.time := by
    have hym : y ∈ ofKey x.key xs := by simp [ofKey, hy, hk]
    have hch : (ofKey x.key xs).Pairwise fun a b => a.time ≤ b.time := by
      have : (ofKey x.key xs).Pairwise fun a b => a.key = b.key → a.time ≤ b.time :=
        hg.chronological.sublist (List.filter_sublist)
      refine List.Pairwise.imp_of_mem ?_ this
      intro a b ha hb hab
      exact hab (by rw [(ofKey_mem ha).2, (ofKey_mem hb).2])
    generalize ofKey x.key xs = l at hym hch
    induction l using List.reverseRecOn with
    | nil => simp at hym
    | append_singleton l z ih =>
      refine ⟨z, by simp, ?_⟩
      rcases List.mem_append.1 hym with h | h
      · exact (List.pairwise_append.1 hch).2.2 y h z (by simp)
      · rw [List.mem_singleton.1 h]
  obtain ⟨z, hz, hyz⟩ := hlast
  have := h2 x.key
  rw [hz] at this
  rcases hl : t.last.find? x.key with _ | l
  · rw [hl] at this; simp at this
  · rw [hl] at this
    simp only [Option.map_some, Option.some.injEq] at this
    unfold TsImputer.exec
    rw [hl]
    simp only [Option.any_some]
    rw [if_pos (by simp; omega)]

/-- With the interpolate strategy, every row throws. -/
theorem C36_interpolate [LinearOrder K] (c : TsConfig K S) (hc : c.strategy = .interpolate) (t : TsImputer K S)
    (x : TsIn K S) : t.exec c x = ⟨[], some .runtimeError, t⟩ := by
  unfold TsImputer.exec
  simp only [hc]
  split <;> rfl

/-- **C35 without a positive frequency.**  The constructor accepts a frequency of 0, with which a gap is never filled: however
much memory there is, the second row ends with an error and no output. -/
theorem C35_frequency_zero_false (space : Nat) :
    let c : TsConfig Nat Nat := ⟨0, [12], .forward, .empty, false, space⟩
    c.check = .ok c ∧ ∃ e t, (tsImputerXf c).runAll .new [⟨0, 0, [none]⟩, ⟨1, 0, [none]⟩]
      = ⟨[⟨false, 0, 0, [none]⟩], some e, t⟩ := by
  refine ⟨rfl, ?_⟩
  have h0 : ∀ s, generateTimes 0 0 s 0 = .ok [] := by
    intro s
    unfold generateTimes
    cases s <;> rfl
  obtain ⟨e, he⟩ := generateTimes_diverges 0 1 (Int.le_refl _) space 0 (by decide)
  have ha : addTime 0 0 = .ok 0 := rfl
  refine ⟨e, ?_⟩
  simp only [Xf.runAll, Xf.execAll, tsImputerXf, TsImputer.exec, TsImputer.new, OMap.find?_empty, Option.any_none,
    Bool.false_eq_true, if_false, TsImputer.fill, Option.getD_none, generateRows, TsIn.row, ha, h0, fillRows,
    List.map_nil, List.nil_append, if_true, tsImpute, OMap.find?_set_self, Option.any_some, Option.getD_some, he]
  exact ⟨_, rfl⟩

/-! Non-vacuity: two keys, a gap of two steps, two columns. -/

private def exampleSeries : List (TsIn Nat String) :=
  [⟨0, 1, [some "a", none]⟩, ⟨5, 2, [none, none]⟩, ⟨30, 1, [none, some "b"]⟩, ⟨7, 2, [some "c", some "d"]⟩]

private theorem exampleGood : GoodSeries 10 5 exampleSeries :=
  ⟨by decide, by decide, by decide, by decide, by decide⟩

example : expand 10 (ofKey 1 exampleSeries)
    = [⟨false, 0, 1, [some "a", none]⟩, ⟨true, 10, 1, [none, none]⟩, ⟨true, 20, 1, [none, none]⟩,
      ⟨false, 30, 1, [none, some "b"]⟩] := by decide +kernel

example : ((tsImputerXf (⟨10, [12, 12], .forward, .empty, false, 5⟩ : TsConfig Nat String)).runAll .new
    exampleSeries).outs
    = [⟨false, 0, 1, [some "a", none]⟩, ⟨false, 5, 2, [none, none]⟩, ⟨true, 10, 1, [some "a", none]⟩,
      ⟨true, 20, 1, [some "a", none]⟩, ⟨false, 30, 1, [some "a", some "b"]⟩,
      ⟨false, 7, 2, [some "c", some "d"]⟩] := by decide +kernel

example : ((tsImputerXf (⟨10, [12, 12], .backward, .empty, false, 5⟩ : TsConfig Nat String)).runAll .new
    exampleSeries).outs
    = [⟨false, 0, 1, [some "a", some "b"]⟩, ⟨false, 5, 2, [some "c", some "d"]⟩,
      ⟨false, 7, 2, [some "c", some "d"]⟩, ⟨true, 10, 1, [none, some "b"]⟩, ⟨true, 20, 1, [none, some "b"]⟩,
      ⟨false, 30, 1, [none, some "b"]⟩] := by decide +kernel

example : MedianReady (⟨10, [12, 1], .median, .empty, true, 5⟩ : TsConfig Nat String) exampleSeries :=
  ⟨by decide, by decide +kernel, by decide⟩

example : MedianReady (⟨10, [12, 1], .median, (OMap.empty.set 1 ["5", "6"]).set 2 ["7", "8"], false, 5⟩
    : TsConfig Nat String) exampleSeries :=
  ⟨by decide, by
    intro x hx m hm
    simp only [exampleSeries, List.mem_cons, List.not_mem_nil, or_false] at hx
    rcases hx with rfl | rfl | rfl | rfl <;> (cases hm; decide), by decide +kernel⟩

example : ∃ outs t, (tsImputerXf (⟨10, [12, 12], .forward, .empty, false, 5⟩ : TsConfig Nat String)).execAll .new
    exampleSeries = ⟨outs, none, t⟩ ∧ t.exec ⟨10, [12, 12], .forward, .empty, false, 5⟩ ⟨29, 1, [none, none]⟩
      = ⟨[], some .runtimeError, t⟩ :=
  C35_out_of_order _ (.inl rfl) exampleSeries _ ⟨30, 1, [none, some "b"]⟩ exampleGood (by decide) rfl (by decide)

example : ((tsImputerXf (⟨10, [12, 1], .median, OMap.empty.set 1 ["5", "6"], false, 5⟩ : TsConfig Nat String)).execAll
    .new ([⟨0, 1, [none, none]⟩, ⟨20, 1, [none, none]⟩] ++ [⟨0, 2, [none, some "a"]⟩])).err = some .runtimeError :=
  (C36_median_unknown _ rfl rfl [⟨0, 1, [none, none]⟩, ⟨20, 1, [none, none]⟩] ⟨0, 2, [none, some "a"]⟩
    ⟨by decide, by decide, by decide, by decide, by decide⟩
    ⟨by decide, by
      intro x hx m hm
      simp only [List.mem_cons, List.not_mem_nil, or_false] at hx
      rcases hx with rfl | rfl <;> (cases hm; decide), by decide +kernel⟩
    (by decide) (by decide +kernel) ⟨0, 12, by decide⟩).1

end Feat
