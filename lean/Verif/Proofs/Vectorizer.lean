import Verif.Model.Vectorizer
import Verif.Proofs.DocStats
import Mathlib.Data.List.Induction
/-
Lemmas about the vectorizers.
-/
namespace Feat
variable {D Fl : Type}

/-! ### Counting tokens -/

private abbrev Sorted (m : List (Str × UInt32)) : Prop := m.Pairwise fun a b => rangeLess a.1 b.1 = true

private theorem countToken_spec (t : Str) (m : List (Str × UInt32)) (hm : Sorted m) :
    (∀ k, k ∈ (countToken t m).map (·.1) ↔ k = t ∨ k ∈ m.map (·.1)) ∧ Sorted (countToken t m) ∧
    ∀ k n, (k, n) ∈ countToken t m ↔
      (k ≠ t ∧ (k, n) ∈ m) ∨ (k = t ∧ ((∃ n', (t, n') ∈ m ∧ n = n' + 1) ∨ (t ∉ m.map (·.1) ∧ n = 1))) := by
  induction m with
  | nil =>
    refine ⟨by simp [countToken], by simp [countToken], ?_⟩
    intro k n
    simp [countToken]
  | cons e m ih =>
    obtain ⟨h1, h2⟩ := List.pairwise_cons.1 hm
    obtain ⟨i1, i2, i3⟩ := ih h2
    have hst := strictTotal_range
    unfold countToken
    split
    · rename_i hlt
      have hnot : t ∉ (e :: m).map (·.1) := by
        rw [List.map_cons, List.mem_cons]
        rintro (h | h)
        · rw [← h, hst.irrefl] at hlt; cases hlt
        · obtain ⟨x, hx, hxt⟩ := List.mem_map.1 h
          have := hst.trans _ _ _ hlt (h1 x hx)
          rw [← hxt, hst.irrefl] at this; cases this
      refine ⟨by simp, ?_, ?_⟩
      · rw [Sorted, List.pairwise_cons, List.pairwise_cons]
        refine ⟨?_, h1, h2⟩
        intro a ha
        rcases List.mem_cons.1 ha with rfl | ha
        · exact hlt
        · exact hst.trans _ _ _ hlt (h1 a ha)
      · intro k n
        rw [List.mem_cons, Prod.mk.injEq]
        constructor
        · rintro (⟨rfl, rfl⟩ | h)
          · exact .inr ⟨rfl, .inr ⟨hnot, rfl⟩⟩
          · refine .inl ⟨?_, h⟩
            rintro rfl
            exact hnot (List.mem_map.2 ⟨_, h, rfl⟩)
        · rintro (⟨_, h⟩ | ⟨rfl, ⟨n', h, _⟩ | ⟨_, rfl⟩⟩)
          · exact .inr h
          · exact absurd (List.mem_map.2 ⟨_, h, rfl⟩) hnot
          · exact .inl ⟨rfl, rfl⟩
    · split
      · rename_i hnlt hlt
        have hne : e.1 ≠ t := by
          rintro rfl
          rw [hst.irrefl] at hlt; cases hlt
        refine ⟨?_, ?_, ?_⟩
        · intro k
          rw [List.map_cons, List.mem_cons, i1, List.map_cons, List.mem_cons]
          tauto
        · rw [Sorted, List.pairwise_cons]
          refine ⟨?_, i2⟩
          intro a ha
          rcases (i1 a.1).1 (List.mem_map.2 ⟨a, ha, rfl⟩) with h | h
          · rw [h]; exact hlt
          · obtain ⟨x, hx, hxa⟩ := List.mem_map.1 h
            rw [← hxa]; exact h1 x hx
        · intro k n
          rw [List.mem_cons, i3, List.mem_cons]
          constructor
          · rintro (h | ⟨h, h'⟩ | ⟨rfl, ⟨n', h, h'⟩ | ⟨h, h'⟩⟩)
            · refine .inl ⟨?_, .inl h⟩
              rw [show k = e.1 from congrArg Prod.fst h]; exact hne
            · exact .inl ⟨h, .inr h'⟩
            · exact .inr ⟨rfl, .inl ⟨n', by simp [h], h'⟩⟩
            · refine .inr ⟨rfl, .inr ⟨?_, h'⟩⟩
              rw [List.map_cons, List.mem_cons]
              rintro (h3 | h3)
              · exact hne h3.symm
              · exact h h3
          · rintro (⟨h, h' | h'⟩ | ⟨rfl, ⟨n', h, h'⟩ | ⟨h, h'⟩⟩)
            · exact .inl h'
            · exact .inr (.inl ⟨h, h'⟩)
            · rcases List.mem_cons.1 h with h | h
              · exact absurd (congrArg Prod.fst h).symm hne
              · exact .inr (.inr ⟨rfl, .inl ⟨n', h, h'⟩⟩)
            · refine .inr (.inr ⟨rfl, .inr ⟨?_, h'⟩⟩)
              rw [List.map_cons, List.mem_cons, not_or] at h
              exact h.2
      · rename_i hnlt hnlt'
        have heq : t = e.1 := hst.total _ _ (by simpa using hnlt) (by simpa using hnlt')
        have hnm : t ∉ m.map (·.1) := by
          intro h
          obtain ⟨x, hx, hxt⟩ := List.mem_map.1 h
          have := h1 x hx
          rw [hxt, ← heq, hst.irrefl] at this; cases this
        refine ⟨?_, ?_, ?_⟩
        · intro k
          simp only [List.map_cons, List.mem_cons, heq]
          tauto
        · rw [Sorted, List.pairwise_cons]; exact ⟨h1, h2⟩
        · intro k n
          rw [List.mem_cons, Prod.mk.injEq, List.mem_cons]
          constructor
          · rintro (⟨h, h'⟩ | h)
            · refine .inr ⟨h.trans heq.symm, .inl ⟨e.2, ?_, h'⟩⟩
              rw [List.mem_cons]; left; rw [heq]
            · refine .inl ⟨?_, .inr h⟩
              rintro rfl
              exact hnm (List.mem_map.2 ⟨_, h, rfl⟩)
          · rintro (⟨h, h' | h'⟩ | ⟨h, ⟨n', h', h''⟩ | ⟨h', _⟩⟩)
            · exact absurd (by rw [show k = e.1 from congrArg Prod.fst h', heq]) h
            · exact .inr h'
            · rcases List.mem_cons.1 h' with h3 | h3
              · left
                refine ⟨h.trans heq, ?_⟩
                rw [h'', show n' = e.2 from congrArg Prod.snd h3]
              · exact absurd (List.mem_map.2 ⟨_, h3, rfl⟩) hnm
            · exact absurd (by rw [List.map_cons, List.mem_cons]; exact .inl heq) h'

/-- The counts: every token once, with the number of its occurrences (modulo 2³²). -/
theorem countTokens_spec (ts : List Str) :
    ((countTokens ts).map (·.1)).Nodup ∧
    ∀ k n, (k, n) ∈ countTokens ts ↔ k ∈ ts ∧ n = UInt32.ofNat (ts.count k) := by
  have key : ∀ ts : List Str, Sorted (countTokens ts) ∧ (∀ k, k ∈ (countTokens ts).map (·.1) ↔ k ∈ ts) ∧
      ∀ k n, (k, n) ∈ countTokens ts ↔ k ∈ ts ∧ n = UInt32.ofNat (ts.count k) := by
    intro ts
    induction ts using List.reverseRecOn with
    | nil => simp [countTokens]
    | append_singleton ts t ih =>
      obtain ⟨h1, h2, h3⟩ := ih
      have he : countTokens (ts ++ [t]) = countToken t (countTokens ts) := by simp [countTokens]
      rw [he]
      obtain ⟨g1, g2, g3⟩ := countToken_spec t _ h1
      refine ⟨g2, ?_, ?_⟩
      · intro k
        rw [g1, h2]
        simp only [List.mem_append, List.mem_singleton]
        tauto
      · intro k n
        rw [g3]
        simp only [h3, h2, List.mem_append, List.mem_singleton, List.count_append]
        by_cases hk : k = t
        · subst hk
          by_cases hm : k ∈ ts
          · simp only [ne_eq, not_true, false_and, true_and, hm, or_false, false_or, true_or,
              List.count_singleton_self, UInt32.ofNat_add]
            constructor
            · rintro ⟨n', rfl, rfl⟩; rfl
            · rintro rfl; exact ⟨_, rfl, rfl⟩
          · simp [hm, List.count_eq_zero_of_not_mem hm]
        · simp [hk, Ne.symm hk]
  obtain ⟨h1, _, h3⟩ := key ts
  refine ⟨?_, h3⟩
  have : (List.map (·.1) (countTokens ts)).Pairwise fun a b => rangeLess a b = true := List.pairwise_map.2 h1
  exact strictTotal_range.nodup this

/-! ### The loop -/

/-- The values found by the loop over the words, before they are divided by the norm. -/
def Tfidf.found (t : Tfidf) (weight : Str → UInt32 → Fl) (es : List (Str × UInt32)) : List (UInt32 × Fl) :=
  es.filterMap fun e => (t.labels.find? e.1).map fun i => (i, weight e.1 e.2)

/-- What the loop accumulates for the norm. -/
def Tfidf.accum (ops : TfOps D Fl) (t : Tfidf) (vs : List (UInt32 × Fl)) (norm : Fl) : Fl :=
  vs.foldl (fun n r => match t.norm with
    | .l1 => ops.addF n r.2
    | .l2 => ops.addF n (ops.mulF r.2 r.2)
    | .none => n) norm

theorem Tfidf.loop_eq (ops : TfOps D Fl) (t : Tfidf) (idf : Str → D) (es : List (Str × UInt32))
    (hidf : ∀ e ∈ es, (t.labels.find? e.1).isSome = true → t.idf ops e.1 = .ok (idf e.1)) (norm : Fl) (acc : List (UInt32 × Fl)) :
    t.loop ops es norm acc =
      .ok (t.accum ops (t.found (fun w n => ops.toFloat (ops.mul (t.tf ops n) (idf w))) es) norm,
        acc ++ t.found (fun w n => ops.toFloat (ops.mul (t.tf ops n) (idf w))) es) := by
  induction es generalizing norm acc with
  | nil => simp [Tfidf.loop, Tfidf.found, Tfidf.accum]
  | cons e es ih =>
    have ih := ih (fun e he => hidf e (by simp [he]))
    unfold Tfidf.loop Tfidf.found
    rw [List.filterMap_cons]
    rcases hf : t.labels.find? e.1 with _ | i
    · simp only [Option.map_none]
      rw [ih]
      rfl
    · have := hidf e (by simp) (by rw [hf]; rfl)
      simp only [Option.map_some, this]
      rw [ih]
      simp only [Tfidf.accum, Tfidf.found, List.foldl_cons, List.append_assoc, List.singleton_append]
      cases t.norm <;> rfl

/-! ### Sorting and the sparse vector -/

theorem sortByIndex_props {T : Type} (vs : List (ValueEncoding T)) :
    (sortByIndex vs).Perm vs ∧ (sortByIndex vs).Pairwise fun a b => a.index.toNat ≤ b.index.toNat := by
  refine ⟨List.perm_insertionSort _ vs, ?_⟩
  have : Std.Total (fun a b : ValueEncoding T => a.index.toNat ≤ b.index.toNat) := ⟨fun a b => by omega⟩
  have : IsTrans (ValueEncoding T) (fun a b => a.index.toNat ≤ b.index.toNat) := ⟨fun a b c h1 h2 => Nat.le_trans h1 h2⟩
  exact List.pairwise_insertionSort _ vs

theorem orderedFrom_iff {T : Type} (p : UInt64) (vs : List (ValueEncoding T)) :
    orderedFrom p vs = true ↔ (p :: vs.map (·.index)).Pairwise fun a b => a.toNat < b.toNat := by
  induction vs generalizing p with
  | nil => simp [orderedFrom]
  | cons v vs ih =>
    unfold orderedFrom
    rw [List.map_cons, List.pairwise_cons]
    split
    · rename_i h
      rw [UInt64.le_iff_toNat_le] at h
      simp only [Bool.false_eq_true, false_iff, not_and]
      intro hp
      have := hp v.index (by simp)
      omega
    · rename_i h
      rw [UInt64.le_iff_toNat_le] at h
      rw [ih]
      constructor
      · intro hp
        refine ⟨?_, hp⟩
        intro a ha
        rcases List.mem_cons.1 ha with rfl | ha
        · omega
        · have := (List.pairwise_cons.1 hp).1 a ha
          omega
      · exact fun h => h.2

/-- Building a sparse vector from unsorted values: succeeds if there is a value, there are not too many and the indexes
are different. -/
theorem mkSparse_sorted {T : Type} (n : UInt64) (vs : List (ValueEncoding T)) (hn : n ≠ 0) (hle : vs.length ≤ n.toNat) :
    (vs = [] → mkSparse n (sortByIndex vs) = .error .invalidArgument) ∧
    (vs ≠ [] → ¬ (vs.map (·.index)).Nodup → mkSparse n (sortByIndex vs) = .error .invalidArgument) ∧
    (vs ≠ [] → (vs.map (·.index)).Nodup → mkSparse n (sortByIndex vs) = .ok ⟨n, sortByIndex vs⟩ ∧
      (sortByIndex vs).Pairwise fun a b => a.index.toNat < b.index.toNat) := by
  obtain ⟨hp, hs⟩ := sortByIndex_props vs
  have hl : (sortByIndex vs).length = vs.length := hp.length_eq
  have hnd : (vs.map (·.index)).Nodup ↔ ((sortByIndex vs).map (·.index)).Nodup := (hp.map _).nodup_iff.symm
  have hempty : vs = [] ↔ sortByIndex vs = [] := by
    rw [← List.length_eq_zero_iff, ← hl, List.length_eq_zero_iff]
  unfold mkSparse
  rw [hnd]
  simp only [ne_eq, hempty]
  generalize sortByIndex vs = w at *
  rw [if_neg hn, if_neg (by omega)]
  have hstrict : (w.map (·.index)).Nodup ↔ w.Pairwise fun a b => a.index.toNat < b.index.toNat := by
    rw [List.Nodup, List.pairwise_map]
    constructor
    · intro h
      refine (hs.and h).imp ?_
      rintro a b ⟨h1, h2⟩
      have : a.index.toNat ≠ b.index.toNat := fun h => h2 (UInt64.toNat_inj.1 h)
      omega
    · intro h
      refine h.imp ?_
      rintro a b h1 h2
      rw [h2] at h1
      omega
  rw [hstrict]
  refine ⟨?_, ?_, ?_⟩
  · rintro rfl; rfl
  · intro h1 h2
    cases w with
    | nil => exact absurd rfl h1
    | cons v w =>
      simp only
      rw [if_neg]
      rw [orderedFrom_iff, ← List.map_cons (f := fun x : ValueEncoding T => x.index), List.pairwise_map]
      exact h2
  · intro h1 h2
    refine ⟨?_, h2⟩
    cases w with
    | nil => exact absurd rfl h1
    | cons v w =>
      simp only
      rw [if_pos]
      rw [orderedFrom_iff, ← List.map_cons (f := fun x : ValueEncoding T => x.index), List.pairwise_map]
      exact h2

/-! ### One document -/

/-- The terms of a document that have a label, in the order in which they are visited. -/
def Tfidf.known (t : Tfidf) (ts : List Str) : List Str :=
  ((countTokens ts).map (·.1)).filter fun w => (t.labels.find? w).isSome

theorem Tfidf.known_spec (t : Tfidf) (ts : List Str) :
    (t.known ts).Nodup ∧ ∀ w, w ∈ t.known ts ↔ w ∈ ts ∧ (t.labels.find? w).isSome = true := by
  obtain ⟨h1, h2⟩ := countTokens_spec ts
  refine ⟨h1.filter _, ?_⟩
  intro w
  unfold Tfidf.known
  rw [List.mem_filter, List.mem_map]
  constructor
  · rintro ⟨⟨⟨k, n⟩, hk, rfl⟩, h⟩
    exact ⟨((h2 k n).1 hk).1, h⟩
  · rintro ⟨h, h'⟩
    exact ⟨⟨(w, _), (h2 _ _).2 ⟨h, rfl⟩, rfl⟩, h'⟩

theorem Tfidf.known_length (t : Tfidf) (ts : List Str) : (t.known ts).length ≤ t.labels.size := by
  obtain ⟨h1, h2⟩ := t.known_spec ts
  have : (t.known ts).length ≤ (t.labels.entries.map (·.1)).length := by
    refine (List.subperm_of_subset h1 ?_).length_le
    intro w hw
    obtain ⟨i, hi⟩ := Option.isSome_iff_exists.1 ((h2 w).1 hw).2
    exact List.mem_map.2 ⟨_, (t.labels.find?_eq_some w i).1 hi, rfl⟩
  rw [List.length_map] at this
  exact this

theorem Tfidf.found_known (t : Tfidf) (weight : Str → UInt32 → Fl) (ts : List Str) :
    t.found weight (countTokens ts)
      = (t.known ts).map fun w => ((t.labels.find? w).getD 0, weight w (UInt32.ofNat (ts.count w))) := by
  have h2 := (countTokens_spec ts).2
  unfold Tfidf.found Tfidf.known
  have : ∀ e ∈ countTokens ts, e.2 = UInt32.ofNat (ts.count e.1) := fun e he => ((h2 e.1 e.2).1 he).2
  generalize countTokens ts = es at this
  clear h2
  induction es with
  | nil => rfl
  | cons e es ih =>
    have ih := ih (fun e he => this e (by simp [he]))
    have he := this e (by simp)
    rw [List.filterMap_cons, List.map_cons, List.filter_cons]
    rcases hf : t.labels.find? e.1 with _ | i
    · simpa using ih
    · simp only [Option.map_some, Option.isSome_some, if_true, List.map_cons, hf, Option.getD_some, ih, he]

/-- The weight of a term of a document before normalisation. -/
def Tfidf.weight (ops : TfOps D Fl) (t : Tfidf) (idf : Str → D) (ts : List Str) (w : Str) : Fl :=
  ops.toFloat (ops.mul (t.tf ops (UInt32.ofNat (ts.count w))) (idf w))

/-- What `execute` yields for a document with the tokens `ts`. -/
theorem Tfidf.execute_spec (ops : TfOps D Fl) (t : Tfidf) (idf : Str → D) (doc : Str) (ts : List Str)
    (hts : t.text.executeTokens t.lowercase doc = .ok ts) (h0 : 0 < t.labels.size) (hsz : t.labels.size < 2 ^ 64)
    (hidf : ∀ w ∈ ts, (t.labels.find? w).isSome = true → t.idf ops w = .ok (idf w)) :
    let norm := t.divisor ops (((t.known ts).map (t.weight ops idf ts)).foldl (fun n v => match t.norm with
      | .l1 => ops.addF n v
      | .l2 => ops.addF n (ops.mulF v v)
      | .none => n) ops.zeroF)
    (t.known ts = [] → t.execute ops doc = .error .invalidArgument) ∧
    (∀ w ∈ t.known ts, ∀ w' ∈ t.known ts, w ≠ w' → t.labels.find? w = t.labels.find? w' →
      t.execute ops doc = .error .invalidArgument) ∧
    (t.known ts ≠ [] → (∀ w ∈ t.known ts, ∀ w' ∈ t.known ts, t.labels.find? w = t.labels.find? w' → w = w') →
      ∃ v, t.execute ops doc = .ok v ∧ v.numElements.toNat = t.labels.size ∧ v.values ≠ [] ∧
        (v.values.Pairwise fun a b => a.index.toNat < b.index.toNat) ∧
        v.values.Perm ((t.known ts).map fun w =>
          ⟨ops.divF (t.weight ops idf ts w) norm, ((t.labels.find? w).getD 0).toUInt64⟩)) := by
  intro norm
  obtain ⟨hnd, hmem⟩ := countTokens_spec ts
  obtain ⟨knd, kmem⟩ := t.known_spec ts
  have hloop := Tfidf.loop_eq ops t idf (countTokens ts) (by
    rintro ⟨k, n⟩ he hs
    exact hidf k ((hmem k n).1 he).1 hs) ops.zeroF []
  rw [Tfidf.found_known, List.nil_append] at hloop
  have hacc : t.divisor ops (t.accum ops ((t.known ts).map fun w => ((t.labels.find? w).getD 0,
      ops.toFloat (ops.mul (t.tf ops (UInt32.ofNat (ts.count w))) (idf w)))) ops.zeroF) = norm := by
    show _ = t.divisor ops _
    congr 1
    unfold Tfidf.accum
    rw [List.foldl_map, List.foldl_map]
    rfl
  have hex : t.execute ops doc = mkSparse (UInt64.ofNat t.labels.size)
      (sortByIndex ((t.known ts).map fun w =>
        ⟨ops.divF (t.weight ops idf ts w) norm, ((t.labels.find? w).getD 0).toUInt64⟩)) := by
    unfold Tfidf.execute
    rw [hts]
    simp only [hloop]
    rw [hacc, List.map_map]
    rfl
  rw [hex]
  have hn : (UInt64.ofNat t.labels.size).toNat = t.labels.size := UInt64.toNat_ofNat_of_lt' hsz
  obtain ⟨s1, s2, s3⟩ := mkSparse_sorted (UInt64.ofNat t.labels.size) ((t.known ts).map fun w =>
        ⟨ops.divF (t.weight ops idf ts w) norm, ((t.labels.find? w).getD 0).toUInt64⟩) (by
      intro h
      rw [h] at hn
      simp at hn
      omega) (by rw [List.length_map, hn]; exact t.known_length ts)
  have hidx : ∀ w ∈ t.known ts, ∀ w' ∈ t.known ts,
      ((t.labels.find? w).getD 0).toUInt64 = ((t.labels.find? w').getD 0).toUInt64 →
      t.labels.find? w = t.labels.find? w' := by
    intro w hw w' hw' h
    obtain ⟨i, hi⟩ := Option.isSome_iff_exists.1 ((kmem w).1 hw).2
    obtain ⟨j, hj⟩ := Option.isSome_iff_exists.1 ((kmem w').1 hw').2
    rw [hi, hj] at h ⊢
    have := congrArg UInt64.toNat h
    simp only [Option.getD_some, UInt32.toNat_toUInt64] at this
    rw [UInt32.toNat_inj.1 this]
  refine ⟨?_, ?_, ?_⟩
  · intro h
    exact s1 (by rw [h]; rfl)
  · intro w hw w' hw' hne heq
    refine s2 ?_ ?_
    · intro h
      rw [List.map_eq_nil_iff] at h
      rw [h] at hw; cases hw
    · intro h
      rw [List.map_map] at h
      exact hne (List.inj_on_of_nodup_map h hw hw' (by simp only [Function.comp_apply, heq]))
  · intro hne hinj
    obtain ⟨s4, s5⟩ := s3 (by simpa using hne) (by
      rw [List.map_map]
      refine (List.nodup_map_iff_inj_on knd).2 ?_
      intro w hw w' hw' h
      exact hinj w hw w' hw' (hidx w hw w' hw' h))
    refine ⟨_, s4, hn, ?_, s5, (sortByIndex_props _).1⟩
    intro h
    simp only at h
    have := (sortByIndex_props ((t.known ts).map fun w => (⟨ops.divF (t.weight ops idf ts w) norm,
      ((t.labels.find? w).getD 0).toUInt64⟩ : ValueEncoding Fl))).1.length_eq
    rw [h, List.length_map] at this
    exact hne (List.length_eq_zero_iff.1 this.symm)

end Feat
