import Verif.Model.FloatCategories
import Verif.Proofs.ComponentPipeline
import Mathlib.Data.List.Induction
/-
Maps and sorted lists with floating point numbers as keys.
-/
namespace Feat.FloatCategories
open Feat.FloatArith
variable {T : Type} [FloType T]

theorem eq_iff' {x y : T} : eq x y = true ↔ isNaN x = false ∧ isNaN y = false ∧ key x = key y := by
  unfold FloatArith.eq
  simp [and_assoc]

theorem lt_iff' {x y : T} : lt x y = true ↔ isNaN x = false ∧ isNaN y = false ∧ key x < key y := by
  unfold FloatArith.lt
  simp [and_assoc]

theorem eq_false_nan {x y : T} (h : isNaN y = true) : eq x y = false := by
  cases hb : eq x y
  · rfl
  · rw [(eq_iff'.1 hb).2.1] at h; cases h

theorem eq_refl' {x : T} (h : isNaN x = false) : eq x x = true := eq_iff'.2 ⟨h, h, rfl⟩

theorem eq_comm' {x y : T} : eq x y = eq y x := by
  rw [Bool.eq_iff_iff, eq_iff', eq_iff']
  constructor <;> rintro ⟨a, b, c⟩ <;> exact ⟨b, a, c.symm⟩

theorem eq_trans' {x y z : T} (h : eq x y = true) (h' : eq y z = true) : eq x z = true := by
  rw [eq_iff'] at *
  exact ⟨h.1, h'.2.1, h.2.2.trans h'.2.2⟩

theorem eq_congr {x y : T} (h : eq x y = true) : (eq · x) = (eq · y) := by
  funext z
  rw [Bool.eq_iff_iff]
  rw [eq_comm'] at h
  exact ⟨fun h' => eq_trans' h' (by rw [eq_comm']; exact h), fun h' => eq_trans' h' h⟩

theorem eq_congr_left {x y : T} (h : eq x y = true) : eq x = eq y := by
  funext z
  rw [eq_comm', eq_comm' (x := y)]
  exact congrFun (eq_congr h) z

/-- The keys of a map: no two are equal numbers. -/
def Distinct (l : List T) : Prop := l.Pairwise fun a b => eq a b = false

theorem Distinct.perm {l l' : List T} (h : Distinct l) (hp : l.Perm l') : Distinct l' :=
  List.Pairwise.perm h hp fun hab => by rw [eq_comm']; exact hab

/-! ### Counting -/

theorem count_find (m : Entries T) (x : T) (h : m.any (fun e => eq e.1 x) = false) : count m x = m ++ [(x, 1)] := by
  induction m with
  | nil => rfl
  | cons e es ih =>
    rw [List.any_cons, Bool.or_eq_false_iff] at h
    rw [count, if_neg (by rw [h.1]; simp), ih h.2]
    rfl

theorem count_keys (m : Entries T) (x : T) :
    (count m x).map (·.1) = if m.any (fun e => eq e.1 x) then m.map (·.1) else m.map (·.1) ++ [x] := by
  induction m with
  | nil => rfl
  | cons e es ih =>
    rw [count, List.any_cons]
    by_cases h : eq e.1 x = true
    · rw [if_pos h, h]; rfl
    · rw [if_neg h, List.map_cons, ih, (Bool.not_eq_true _).mp h, Bool.false_or]
      split <;> rfl

/-- The keys in the order in which they were seen first; every NaN counts. -/
def firstSeen (data : List T) : List T := data.foldl (fun l x => if l.any (fun k => eq k x) then l else l ++ [x]) []

theorem firstSeen_append (data : List T) (x : T) :
    firstSeen (data ++ [x]) = if (firstSeen data).any (fun k => eq k x) then firstSeen data else firstSeen data ++ [x] := by
  unfold firstSeen
  rw [List.foldl_append]
  rfl

theorem hist_keys (data : List T) : (data.foldl count []).map (·.1) = firstSeen data := by
  induction data using List.reverseRecOn with
  | nil => rfl
  | append_singleton data x ih =>
    rw [List.foldl_append, List.foldl_cons, List.foldl_nil, count_keys, firstSeen_append, ← ih, List.any_map]
    rfl

theorem firstSeen_spec (data : List T) :
    Distinct (firstSeen data) ∧ (∀ k ∈ firstSeen data, k ∈ data) ∧
      (∀ x ∈ data, isNaN x = false → ∃ k ∈ firstSeen data, eq k x = true) ∧
      (firstSeen data).countP isNaN = data.countP isNaN := by
  induction data using List.reverseRecOn with
  | nil => exact ⟨List.Pairwise.nil, by simp [firstSeen], by simp, rfl⟩
  | append_singleton data x ih =>
    obtain ⟨h1, h2, h3, h4⟩ := ih
    rw [firstSeen_append]
    split
    · rename_i h
      obtain ⟨k, hk, hkx⟩ := List.any_eq_true.1 h
      refine ⟨h1, fun k hk => by simp [h2 k hk], ?_, ?_⟩
      · intro y hy hn
        rcases List.mem_append.1 hy with hy | hy
        · exact h3 y hy hn
        · rw [List.mem_singleton.1 hy]; exact ⟨k, hk, hkx⟩
      · rw [List.countP_append, ← h4, List.countP_singleton, (eq_iff'.1 hkx).2.1]
        simp
    · rename_i h
      refine ⟨?_, ?_, ?_, ?_⟩
      · refine List.pairwise_append.2 ⟨h1, List.pairwise_singleton _ _, ?_⟩
        intro a ha b hb
        rw [List.mem_singleton.1 hb]
        cases hab : eq a x
        · rfl
        · exact absurd (List.any_eq_true.2 ⟨a, ha, hab⟩) h
      · intro k hk
        rcases List.mem_append.1 hk with hk | hk
        · simp [h2 k hk]
        · simp [List.mem_singleton.1 hk]
      · intro y hy hn
        rcases List.mem_append.1 hy with hy | hy
        · obtain ⟨k, hk, hkx⟩ := h3 y hy hn
          exact ⟨k, by simp [hk], hkx⟩
        · rw [List.mem_singleton.1 hy] at hn ⊢
          exact ⟨x, by simp, eq_refl' hn⟩
      · rw [List.countP_append, List.countP_append, h4]

/-! ### Sorting -/

theorem sortable_numbers (l : List T) (h : ∀ x ∈ l, isNaN x = false) : sortable l = true := by
  unfold sortable
  simp only [List.all_eq_true]
  intro a ha b hb c hc
  have h1 := h a ha
  have h2 := h b hb
  have h3 := h c hc
  have e : ∀ x y : T, isNaN x = false → isNaN y = false → lt x y = decide (key x < key y) := by
    intro x y hx hy
    unfold FloatArith.lt
    simp [hx, hy]
  rw [e a b h1 h2, e b a h2 h1, e b c h2 h3, e c b h3 h2, e a c h1 h3, e c a h3 h1]
  by_cases hab : key a < key b
  · simp [hab]
  · by_cases hba : key b < key a
    · simp [hba]
    · by_cases hbc : key b < key c
      · simp [hbc]
      · by_cases hcb : key c < key b
        · simp [hcb]
        · have : ¬ key a < key c := by omega
          have h' : ¬ key c < key a := by omega
          simp [hab, hba, hbc, hcb, this, h']

theorem lt_nan_left {x y : T} (h : isNaN x = true) : lt x y = false := by
  unfold FloatArith.lt
  simp [h]

theorem lt_nan_right {x y : T} (h : isNaN y = true) : lt x y = false := by
  unfold FloatArith.lt
  simp [h]

theorem not_sortable (l : List T) {n a b : T} (hn : n ∈ l) (ha : a ∈ l) (hb : b ∈ l) (hnan : isNaN n = true)
    (hab : lt a b = true) : sortable l = false := by
  cases h : sortable l
  · rfl
  · unfold sortable at h
    simp only [List.all_eq_true] at h
    have := h a ha n hn b hb
    rw [lt_nan_right hnan, lt_nan_left hnan, lt_nan_left hnan, lt_nan_right hnan, hab] at this
    simp at this

/-- All numbers in the list are equal. -/
theorem sortable_one (l : List T) (h : ∀ a ∈ l, ∀ b ∈ l, lt a b = false) : sortable l = true := by
  unfold sortable
  simp only [List.all_eq_true]
  intro a ha b hb c hc
  rw [h a ha c hc, h c hc a ha]
  simp

theorem sort_numbers (l : List T) (h : ∀ x ∈ l, isNaN x = false) (hd : Distinct l) :
    ∃ ks, sortKeys l = .ok ks ∧ ks.Perm l ∧ ks.Pairwise fun a b => lt a b = true := by
  refine ⟨_, by unfold sortKeys; rw [if_pos (sortable_numbers l h)], List.perm_insertionSort _ _, ?_⟩
  have hp := List.perm_insertionSort (fun a b : T => (!lt b a) = true) l
  have hd' := hd.perm hp.symm
  have hn : ∀ x ∈ l.insertionSort (fun a b : T => (!lt b a) = true), isNaN x = false := fun x hx => h x (hp.mem_iff.1 hx)
  have hs : (l.insertionSort (fun a b : T => (!lt b a) = true)).Pairwise fun a b => key a ≤ key b := by
    have hsort : ∀ l : List T, (∀ x ∈ l, isNaN x = false) →
        (l.insertionSort (fun a b : T => (!lt b a) = true)) = l.insertionSort (fun a b : T => key a ≤ key b) := by
      have hins : ∀ (x : T) (l : List T), isNaN x = false → (∀ y ∈ l, isNaN y = false) →
          l.orderedInsert (fun a b : T => (!lt b a) = true) x = l.orderedInsert (fun a b : T => key a ≤ key b) x := by
        intro x l hx
        induction l with
        | nil => intro _; rfl
        | cons y l ih =>
          intro hl
          rw [List.orderedInsert, List.orderedInsert, ih fun z hz => hl z (by simp [hz])]
          have : ((!lt y x) = true) ↔ key x ≤ key y := by
            unfold FloatArith.lt
            simp [hx, hl y (by simp)]
          by_cases hxy : key x ≤ key y
          · rw [if_pos (this.2 hxy), if_pos hxy]
          · rw [if_neg (fun h' => hxy (this.1 h')), if_neg hxy]
      intro l
      induction l with
      | nil => intro _; rfl
      | cons x l ih =>
        intro hl
        have ih := ih fun z hz => hl z (by simp [hz])
        rw [List.insertionSort_cons, List.insertionSort_cons, ih]
        refine hins x _ (hl x (by simp)) ?_
        intro y hy
        exact hl y (by simp [(List.perm_insertionSort _ _).mem_iff.1 hy])
    rw [hsort l h]
    haveI : IsTrans T (fun a b => key a ≤ key b) := ⟨fun _ _ _ => le_trans⟩
    haveI : Std.Total (fun a b : T => key a ≤ key b) := ⟨fun _ _ => le_total _ _⟩
    exact List.pairwise_insertionSort _ _
  refine ((hs.and hd').imp_of_mem ?_)
  intro a b ha hb hab
  rw [lt_iff']
  refine ⟨hn a ha, hn b hb, lt_of_le_of_ne hab.1 fun he => ?_⟩
  have := eq_iff'.2 ⟨hn a ha, hn b hb, he⟩
  rw [hab.2] at this
  cases this

/-! ### Numbering -/

/-- `find` with `==`. -/
def findEq (m : Entries T) (x : T) : Option UInt32 := (m.find? fun e => eq e.1 x).map (·.2)

theorem find_number (p : Probe T) (m : Entries T) (x : T) (hx : isNaN x = false) : find p m x = findEq m x := by
  unfold find findEq
  congr 2
  funext e
  unfold keyEqual
  rw [hx, Bool.and_false, Bool.false_or]
  cases h : eq e.1 x
  · rw [Bool.and_false]
  · rw [p.numbers m e.1 x h]; rfl

theorem find_nan (p : Probe T) (m : Entries T) (x : T) (hx : isNaN x = true) (h : ∀ e ∈ m, isNaN e.1 = false) :
    find p m x = none := by
  unfold find
  rw [List.find?_eq_none.2 fun e he => by unfold keyEqual; rw [eq_false_nan hx, h e he]; simp]
  rfl

theorem findEq_isSome (m : Entries T) (x : T) : (findEq m x).isSome = m.any fun e => eq e.1 x := by
  unfold findEq
  rw [Option.isSome_map, Bool.eq_iff_iff, List.find?_isSome, List.any_eq_true]

theorem indexKeys_eq (p : Probe T) (ks : List T) (m : Entries T) (h : Distinct (m.map (·.1) ++ ks)) (hn : ∀ k ∈ ks, isNaN k = false) :
    indexKeys p ks m = m ++ (ks.zipIdx m.length).map fun e => (e.1, UInt32.ofNat e.2) := by
  induction ks generalizing m with
  | nil => simp [indexKeys]
  | cons k ks ih =>
    have hk : m.any (fun e => eq e.1 k) = false := by
      rw [List.any_eq_false]
      intro e he
      have := (List.pairwise_append.1 h).2.2 e.1 (List.mem_map_of_mem he) k (by simp)
      simp [this]
    rw [indexKeys, emplace, find_number p m k (hn k (by simp)), findEq_isSome, if_neg (by rw [hk]; simp),
      ih _ (by simpa using h) (fun k hk => hn k (by simp [hk]))]
    simp

theorem find_numbered (ks : List T) (i₀ : Nat) (x : T) (hd : Distinct ks) :
    (∀ i (hi : i < ks.length), eq ks[i] x = true →
      findEq ((ks.zipIdx i₀).map fun e => (e.1, UInt32.ofNat e.2)) x = some (UInt32.ofNat (i₀ + i))) ∧
    ((∀ k ∈ ks, eq k x = false) → findEq ((ks.zipIdx i₀).map fun e => (e.1, UInt32.ofNat e.2)) x = none) := by
  induction ks generalizing i₀ with
  | nil => exact ⟨fun i hi => absurd hi (by simp), fun _ => rfl⟩
  | cons k ks ih =>
    obtain ⟨hd1, hd2⟩ := List.pairwise_cons.1 hd
    have ih := ih (i₀ + 1) hd2
    have step : findEq (((k :: ks).zipIdx i₀).map fun e => (e.1, UInt32.ofNat e.2)) x =
        if eq k x then some (UInt32.ofNat i₀) else findEq ((ks.zipIdx (i₀ + 1)).map fun e => (e.1, UInt32.ofNat e.2)) x := by
      unfold findEq
      rw [List.zipIdx_cons, List.map_cons, List.find?_cons]
      cases eq k x <;> rfl
    rw [step]
    constructor
    · intro i hi he
      cases i with
      | zero => rw [if_pos (by simpa using he)]; rfl
      | succ i =>
        have hi' : i < ks.length := by simpa using hi
        have he' : eq ks[i] x = true := by simpa using he
        have : eq k x = false := by
          cases hkx : eq k x
          · rfl
          · have h1 := hd1 ks[i] (List.getElem_mem _)
            rw [eq_trans' hkx (by rw [eq_comm']; exact he')] at h1
            cases h1
        rw [if_neg (by rw [this]; simp), ih.1 i (by simpa using hi) he']
        congr 2
        omega
    · intro h
      rw [if_neg (by rw [h k (by simp)]; simp)]
      exact ih.2 fun k' hk' => h k' (by simp [hk'])

/-! ### The mode -/

theorem hist_counts (data : List T) (hlen : data.length < 2 ^ 32) :
    ∀ e ∈ data.foldl count [], isNaN e.1 = false → e.2.toNat = data.countP (eq e.1) := by
  induction data using List.reverseRecOn with
  | nil => simp
  | append_singleton data x ih =>
    have hl : data.length + 1 < 2 ^ 32 := by simpa using hlen
    have ih := ih (by omega)
    have hd : Distinct ((data.foldl count []).map (·.1)) := by rw [hist_keys]; exact (firstSeen_spec data).1
    have hk : ∀ y ∈ data, isNaN y = false → ∃ k ∈ (data.foldl count []).map (·.1), eq k y = true := by
      rw [hist_keys]; exact (firstSeen_spec data).2.2.1
    rw [List.foldl_append, List.foldl_cons, List.foldl_nil]
    generalize data.foldl count [] = m at ih hd hk
    have hnew : ∀ k : T, (∀ e ∈ m, eq e.1 k = false) → isNaN k = false → data.countP (eq k) = 0 := by
      intro k hk' hn
      rw [List.countP_eq_zero]
      intro y hy hky
      obtain ⟨k', hm, hk2⟩ := hk y hy (eq_iff'.1 hky).2.1
      obtain ⟨e, he, rfl⟩ := List.mem_map.1 hm
      have := hk' e he
      rw [eq_trans' hk2 (by rw [eq_comm']; exact hky)] at this
      cases this
    clear hk
    have hc : ∀ p : T → Bool, data.countP p ≤ data.length := fun p => List.countP_le_length
    -- the entries before the one for `x`
    have main : ∀ (m' : Entries T), (∀ e ∈ m', isNaN e.1 = false → e.2.toNat = data.countP (eq e.1)) →
        Distinct (m'.map (·.1)) → (isNaN x = false → (∀ e ∈ m', eq e.1 x = false) → data.countP (eq x) = 0) →
        ∀ e ∈ count m' x, isNaN e.1 = false → e.2.toNat = (data ++ [x]).countP (eq e.1) := by
      intro m'
      induction m' with
      | nil =>
        intro _ _ h0 e he hn
        rw [count, List.mem_singleton] at he
        subst he
        rw [List.countP_append, h0 hn (by simp), List.countP_singleton, eq_refl' hn]
        rfl
      | cons a m' ihm =>
        intro h1 h2 h0 e he hn
        rw [count] at he
        obtain ⟨h2a, h2b⟩ := List.pairwise_cons.1 h2
        rw [List.countP_append, List.countP_singleton]
        split at he
        · rename_i hax
          rcases List.mem_cons.1 he with rfl | he
          · have h3 := h1 a (by simp) hn
            have h4 := hc (eq a.1)
            simp only [hax, if_true]
            rw [UInt32.toNat_add, h3]
            exact Nat.mod_eq_of_lt (by show _ + 1 < 2 ^ 32; omega)
          · have h3 := h1 e (by simp [he]) hn
            have h4 : eq e.1 x = false := by
              cases hex : eq e.1 x
              · rfl
              · have := h2a e.1 (List.mem_map_of_mem he)
                rw [eq_trans' hax (by rw [eq_comm']; exact hex)] at this
                cases this
            rw [h4, h3]
            simp
        · rename_i hax
          rcases List.mem_cons.1 he with rfl | he
          · rw [h1 e (by simp) hn, (Bool.not_eq_true _).mp hax]
            simp
          · have := ihm (fun e he => h1 e (by simp [he])) h2b (fun hx h => h0 hx (by
              intro e he
              rcases List.mem_cons.1 he with rfl | he
              · exact (Bool.not_eq_true _).mp hax
              · exact h e he)) e he hn
            rw [List.countP_append, List.countP_singleton] at this
            exact this
    exact main m ih hd fun hx h => hnew x h hx

/-- The keys of a table with `key_equal` after inserting the elements of a list, each with the number of entries before it: of
the numbers, the first of each category; of the NaNs, some, of which one is equal by `key_equal` to any given one. -/
theorem numbered (p : Probe T) (xs : List T) :
    ∃ ks : List T, xs.foldl (fun m x => emplace p m x (UInt32.ofNat m.length)) [] = (ks.zipIdx.map fun e : T × Nat => (e.1, UInt32.ofNat e.2)) ∧
      ks.Sublist (firstSeen xs) ∧ (∀ k ∈ firstSeen xs, isNaN k = false → k ∈ ks) ∧
      ((∃ x ∈ xs, isNaN x = true) → ∃ k ∈ ks, isNaN k = true) ∧
      ∀ n, (∀ x ∈ xs, isNaN x = true → x = n) → ks.countP isNaN ≤ 1 := by
  induction xs using List.reverseRecOn with
  | nil => exact ⟨[], rfl, List.Sublist.refl _, by simp [firstSeen], by simp, by simp⟩
  | append_singleton xs x ih =>
    obtain ⟨ks, h1, h2, h3, h4, h5⟩ := ih
    obtain ⟨_, _, s3, _⟩ := firstSeen_spec xs
    have hmem : ∀ k ∈ ks, ∃ e ∈ ks.zipIdx.map (fun e : T × Nat => (e.1, UInt32.ofNat e.2)), e.1 = k := by
      intro k hk
      obtain ⟨i, hi, rfl⟩ := List.getElem_of_mem hk
      exact ⟨(ks[i], UInt32.ofNat i), List.mem_map.2 ⟨(ks[i], i), by simp [List.mem_zipIdx_iff_getElem?], rfl⟩, rfl⟩
    have hmem' : ∀ e ∈ ks.zipIdx.map (fun e : T × Nat => (e.1, UInt32.ofNat e.2)), e.1 ∈ ks := by
      intro e he
      obtain ⟨f, hf, rfl⟩ := List.mem_map.1 he
      exact List.fst_mem_of_mem_zipIdx hf
    rw [List.foldl_append, List.foldl_cons, List.foldl_nil, h1, firstSeen_append]
    unfold emplace
    have hadd : (ks.zipIdx.map (fun e : T × Nat => (e.1, UInt32.ofNat e.2))) ++ [(x, UInt32.ofNat (ks.zipIdx.map (fun e : T × Nat => (e.1, UInt32.ofNat e.2))).length)] =
        (ks ++ [x]).zipIdx.map fun e : T × Nat => (e.1, UInt32.ofNat e.2) := by
      rw [List.zipIdx_append, List.map_append]
      simp
    cases hx : isNaN x
    · -- a number
      rw [find_number p _ x hx, findEq_isSome]
      have hany : (ks.zipIdx.map (fun e : T × Nat => (e.1, UInt32.ofNat e.2))).any (fun e => eq e.1 x) = (firstSeen xs).any (fun k => eq k x) := by
        rw [Bool.eq_iff_iff, List.any_eq_true, List.any_eq_true]
        constructor
        · rintro ⟨e, he, hex⟩
          exact ⟨e.1, h2.subset (hmem' e he), hex⟩
        · rintro ⟨k, hk, hkx⟩
          obtain ⟨e, he, rfl⟩ := hmem k (h3 k hk (eq_iff'.1 hkx).1)
          exact ⟨e, he, hkx⟩
      rw [hany]
      have hnan : (∃ y ∈ xs ++ [x], isNaN y = true) → ∃ k ∈ ks, isNaN k = true := by
        rintro ⟨y, hy, hyn⟩
        rcases List.mem_append.1 hy with hy | hy
        · exact h4 ⟨y, hy, hyn⟩
        · rw [List.mem_singleton.1 hy, hx] at hyn; cases hyn
      split
      · exact ⟨ks, rfl, h2, h3, hnan, fun n hn => h5 n fun y hy => hn y (by simp [hy])⟩
      · refine ⟨ks ++ [x], hadd, h2.append (List.Sublist.refl _), ?_, ?_, ?_⟩
        · intro k hk hkn
          rcases List.mem_append.1 hk with hk | hk
          · exact List.mem_append_left _ (h3 k hk hkn)
          · exact List.mem_append_right _ hk
        · intro h
          obtain ⟨k, hk, hkn⟩ := hnan h
          exact ⟨k, by simp [hk], hkn⟩
        · intro n hn
          rw [List.countP_append, List.countP_singleton, hx]
          simpa using h5 n fun y hy => hn y (by simp [hy])
    · -- a NaN
      have hfs : ¬ ((firstSeen xs).any (fun k => eq k x)) = true := by
        rw [List.any_eq_true]
        rintro ⟨k, _, hk⟩
        rw [eq_false_nan hx] at hk; cases hk
      rw [if_neg hfs]
      by_cases hf : (find p (ks.zipIdx.map (fun e : T × Nat => (e.1, UInt32.ofNat e.2))) x).isSome = true
      · rw [if_pos hf]
        refine ⟨ks, rfl, h2.trans (List.sublist_append_left _ _), ?_, ?_, fun n hn => h5 n fun y hy => hn y (by simp [hy])⟩
        · intro k hk hkn
          rcases List.mem_append.1 hk with hk | hk
          · exact h3 k hk hkn
          · rw [List.mem_singleton.1 hk, hx] at hkn; cases hkn
        · intro _
          unfold find at hf
          rw [Option.isSome_map, List.find?_isSome] at hf
          obtain ⟨e, he, hek⟩ := hf
          refine ⟨e.1, hmem' e he, ?_⟩
          unfold keyEqual at hek
          rw [eq_false_nan hx, hx] at hek
          simp at hek
          exact hek.2
      · rw [if_neg hf]
        refine ⟨ks ++ [x], hadd, h2.append (List.Sublist.refl _), ?_, ?_, ?_⟩
        · intro k hk hkn
          rcases List.mem_append.1 hk with hk | hk
          · exact List.mem_append_left _ (h3 k hk hkn)
          · exact List.mem_append_right _ hk
        · intro _
          exact ⟨x, by simp, hx⟩
        · intro n hn
          have hz : ks.countP isNaN = 0 := by
            rw [List.countP_eq_zero]
            intro k hk hkn
            apply hf
            have hkx : k = x := (hn k (by simp [(firstSeen_spec xs).2.1 k (h2.subset hk)]) hkn).trans (hn x (by simp) hx).symm
            obtain ⟨e, he, hek⟩ := hmem k hk
            obtain ⟨e', he', hl, hq⟩ := p.present _ x ⟨e, he, hek.trans hkx, by unfold keyEqual; rw [hx]; rfl⟩
            unfold find
            rw [Option.isSome_map, List.find?_isSome]
            exact ⟨e', he', by rw [hl, hq]; rfl⟩
          rw [List.countP_append, hz, List.countP_singleton, hx]
          simp

theorem firstSeen_order (data : List T) :
    ((firstSeen data).Pairwise fun a b => isNaN a = false → isNaN b = false →
      data.findIdx (eq a) < data.findIdx (eq b)) ∧
    ∀ k ∈ firstSeen data, isNaN k = false → data.find? (eq k) = some k := by
  induction data using List.reverseRecOn with
  | nil => exact ⟨List.Pairwise.nil, by simp [firstSeen]⟩
  | append_singleton data x ih =>
    obtain ⟨h1, h2⟩ := ih
    obtain ⟨s1, s2, s3, _⟩ := firstSeen_spec data
    have hkeep : ∀ k ∈ firstSeen data, isNaN k = false → (data ++ [x]).findIdx (eq k) = data.findIdx (eq k) ∧
        data.findIdx (eq k) < data.length := by
      intro k hk hn
      have : data.findIdx (eq k) < data.length := List.findIdx_lt_length_of_exists ⟨k, s2 k hk, eq_refl' hn⟩
      rw [List.findIdx_append, if_pos this]
      exact ⟨rfl, this⟩
    have hP : (firstSeen data).Pairwise fun a b => isNaN a = false → isNaN b = false →
        (data ++ [x]).findIdx (eq a) < (data ++ [x]).findIdx (eq b) := by
      refine h1.imp_of_mem ?_
      intro a b ha hb hab hna hnb
      rw [(hkeep a ha hna).1, (hkeep b hb hnb).1]
      exact hab hna hnb
    have hF : ∀ k ∈ firstSeen data, isNaN k = false → (data ++ [x]).find? (eq k) = some k := by
      intro k hk hn
      rw [List.find?_append, h2 k hk hn]
      rfl
    rw [firstSeen_append]
    split
    · exact ⟨hP, hF⟩
    · rename_i hx
      have hno : ∀ y ∈ data, eq x y = false := by
        intro y hy
        cases hxy : eq x y
        · rfl
        · obtain ⟨k, hk, hky⟩ := s3 y hy (eq_iff'.1 hxy).2.1
          have hkx : eq k x = true := eq_trans' hky (by rw [eq_comm']; exact hxy)
          exact absurd (List.any_eq_true.2 ⟨k, hk, hkx⟩) hx
      have hidx : ¬ data.findIdx (eq x) < data.length := by
        intro h
        have := List.findIdx_getElem (w := h)
        rw [hno _ (List.getElem_mem _)] at this
        cases this
      constructor
      · refine List.pairwise_append.2 ⟨hP, List.pairwise_singleton _ _, ?_⟩
        intro a ha b hb hna hnb
        rw [List.mem_singleton.1 hb] at hnb ⊢
        rw [(hkeep a ha hna).1, List.findIdx_append, if_neg hidx]
        have := (hkeep a ha hna).2
        omega
      · intro k hk hn
        rcases List.mem_append.1 hk with hk | hk
        · exact hF k hk hn
        · rw [List.mem_singleton.1 hk] at hn ⊢
          rw [List.find?_append, List.find?_eq_none.2 (by intro y hy; rw [hno y hy]; simp), List.find?_singleton, eq_refl' hn]
          rfl

/-- The entry chosen after the entries `seen`. -/
def Chosen (idx : T → UInt32) (seen : List (T × UInt32)) : Option ((T × UInt32) × UInt32) → Prop
  | none => ∀ e ∈ seen, isNaN e.1 = true
  | some (b, i) => b ∈ seen ∧ isNaN b.1 = false ∧ i = idx b.1 ∧
    ∀ e ∈ seen, isNaN e.1 = false → e.2.toNat ≤ b.2.toNat ∧ (e.2.toNat = b.2.toNat → i.toNat ≤ (idx e.1).toNat)

theorem modeLoop_spec (p : Probe T) (order : Entries T) (idx : T → UInt32) (es : List (T × UInt32))
    (hidx : ∀ e ∈ es, isNaN e.1 = false → find p order e.1 = some (idx e.1)) (seen : List (T × UInt32))
    (best : Option ((T × UInt32) × UInt32)) (hb : Chosen idx seen best) :
    ∃ best', modeLoop p order es best = .ok best' ∧ Chosen idx (seen ++ es) best' := by
  induction es generalizing seen best with
  | nil => exact ⟨best, rfl, by simpa using hb⟩
  | cons e es ih =>
    have ih := fun best' hb' => ih (fun e he => hidx e (by simp [he])) (seen ++ [e]) best' hb'
    simp only [List.append_assoc, List.cons_append, List.nil_append] at ih
    have he := hidx e (by simp)
    rw [modeLoop]
    have hskip : isNaN e.1 = true → Chosen idx (seen ++ [e]) best := by
      intro hn
      cases best with
      | none =>
        intro a ha
        rcases List.mem_append.1 ha with ha | ha
        · exact hb a ha
        · rw [List.mem_singleton.1 ha]; exact hn
      | some b =>
        obtain ⟨h1, h2, h3, h4⟩ := hb
        refine ⟨by simp [h1], h2, h3, ?_⟩
        intro a ha hna
        rcases List.mem_append.1 ha with ha | ha
        · exact h4 a ha hna
        · rw [List.mem_singleton.1 ha, hn] at hna; cases hna
    by_cases hat : modeAtLeast best e.2 = true
    · rw [if_pos hat]
      by_cases hn : isNaN e.1 = true
      · rw [if_pos hn]
        exact ih _ (hskip hn)
      · have hn' : isNaN e.1 = false := (Bool.not_eq_true _).mp hn
        rw [if_neg hn, he hn']
        simp only
        by_cases htie : modeTieLater best e.2 (idx e.1) = true
        · rw [if_pos htie]
          refine ih _ ?_
          cases best with
          | none => cases htie
          | some b =>
            obtain ⟨b, i⟩ := b
            obtain ⟨h1, h2, h3, h4⟩ := hb
            simp only [modeTieLater, Bool.and_eq_true, decide_eq_true_eq] at htie
            have ht2 : i.toNat < (idx e.1).toNat := UInt32.lt_iff_toNat_lt.1 htie.2
            refine ⟨by simp [h1], h2, h3, ?_⟩
            intro a ha hna
            rcases List.mem_append.1 ha with ha | ha
            · exact h4 a ha hna
            · rw [List.mem_singleton.1 ha]
              rw [htie.1]
              exact ⟨Nat.le_refl _, fun _ => by omega⟩
        · rw [if_neg htie]
          refine ih _ ?_
          refine ⟨by simp, hn', rfl, ?_⟩
          intro a ha hna
          rcases List.mem_append.1 ha with ha | ha
          · cases best with
            | none => rw [hb a ha] at hna; cases hna
            | some b =>
              obtain ⟨b, i⟩ := b
              obtain ⟨h1, h2, h3, h4⟩ := hb
              simp only [modeAtLeast, decide_eq_true_eq] at hat
              have hat' : b.2.toNat ≤ e.2.toNat := UInt32.le_iff_toNat_le.1 hat
              obtain ⟨h5, h6⟩ := h4 a ha hna
              refine ⟨Nat.le_trans h5 hat', fun h => ?_⟩
              have heq : e.2.toNat = b.2.toNat := by omega
              have hle : ¬ (i.toNat < (idx e.1).toNat) := by
                intro hlt
                apply htie
                simp only [modeTieLater, Bool.and_eq_true, decide_eq_true_eq]
                exact ⟨UInt32.toNat_inj.1 heq, UInt32.lt_iff_toNat_lt.2 hlt⟩
              have := h6 (by omega)
              omega
          · rw [List.mem_singleton.1 ha]
            exact ⟨Nat.le_refl _, fun _ => Nat.le_refl _⟩
    · rw [if_neg hat]
      refine ih _ ?_
      cases best with
      | none => exact absurd rfl hat
      | some b =>
        obtain ⟨b, i⟩ := b
        obtain ⟨h1, h2, h3, h4⟩ := hb
        simp only [modeAtLeast, decide_eq_true_eq] at hat
        have hat' : ¬ b.2.toNat ≤ e.2.toNat := fun h => hat (UInt32.le_iff_toNat_le.2 h)
        refine ⟨by simp [h1], h2, h3, ?_⟩
        intro a ha hna
        rcases List.mem_append.1 ha with ha | ha
        · exact h4 a ha hna
        · rw [List.mem_singleton.1 ha]
          exact ⟨by omega, fun h => by omega⟩

end Feat.FloatCategories
