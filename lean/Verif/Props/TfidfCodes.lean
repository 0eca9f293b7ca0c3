import Verif.Model.TfidfCodes
import Verif.Props.FloatTfidf
import Verif.Props.Transformers
/-
C91: the options of the tf-idf vectorizer as numbers.
-/
namespace Feat.TfidfCodes
open Feat.FloatText Feat.FloatArith Feat.FloatTfidf
variable {D Fl : Type}

/-- The norm that a number stands for (TfidfVectorizerFeaturizer.h 56–60). -/
def normOf (code : UInt8) : Option NormMethod :=
  if code = 1 then some .l1 else if code = 2 then some .l2 else if code = 3 then some .none else none

/-- The norm in the members of a transformer. -/
def normCode (p : TfidfParams) : UInt8 := p.2.2.2.1

theorem loop_known (ops : TfOps D Fl) {code : UInt8} {m : NormMethod} (hm : normOf code = some m) (t : Tfidf)
    (es : List (Str × UInt32)) (norm : Fl) (acc : List (UInt32 × Fl)) :
    loop ops code t es norm acc = ({ t with norm := m } : Tfidf).loop ops es norm acc := by
  induction es generalizing norm acc with
  | nil => rfl
  | cons e es ih =>
    have hstep : ∀ v : Fl, (if code = 1 then ops.addF norm v else if code = 2 then ops.addF norm (ops.mulF v v) else norm) =
        (match m with | .l1 => ops.addF norm v | .l2 => ops.addF norm (ops.mulF v v) | .none => norm) := by
      intro v
      unfold normOf at hm
      split at hm
      · cases hm; rename_i h; rw [if_pos h]
      · rename_i h1
        split at hm
        · rename_i h2; cases hm; rw [if_neg h1, if_pos h2]
        · rename_i h2
          split at hm
          · cases hm; rw [if_neg h1, if_neg h2]
          · cases hm
    rw [loop, Tfidf.loop]
    show _ = match t.labels.find? e.1 with
      | .none => ({ t with norm := m } : Tfidf).loop ops es norm acc
      | .some i => match t.idf ops e.1 with
        | .error x => .error x
        | .ok idf => _
    rcases t.labels.find? e.1 with _ | i
    · exact ih _ _
    · rcases t.idf ops e.1 with x | idf
      · rfl
      · simp only
        rw [ih, hstep]
        cases m <;> rfl

theorem divisor_known (ops : TfOps D Fl) {code : UInt8} {m : NormMethod} (hm : normOf code = some m) (t : Tfidf) (norm : Fl) :
    divisor ops code norm = ({ t with norm := m } : Tfidf).divisor ops norm := by
  unfold normOf at hm
  split at hm
  · rename_i h; subst h; cases hm; rfl
  · split at hm
    · rename_i h; subst h; cases hm; rfl
    · split at hm
      · rename_i h; subst h; cases hm; rfl
      · cases hm

/-- **C91** The numbers 1, 2 and 3 stand for the L1 norm, the L2 norm and no norm. -/
theorem C91_known (ops : TfOps D Fl) (regex : Str → Str → Except Err (List (Nat × Nat))) (p : TfidfParams) (m : NormMethod)
    (hm : normOf (normCode p) = some m) (doc : Str) :
    execute ops regex p doc = ({ ofParams regex p with norm := m } : Tfidf).execute ops doc := by
  unfold execute Tfidf.execute
  simp only
  generalize (ofParams regex p).text.executeTokens (ofParams regex p).lowercase doc = r
  rcases r with e | ts
  · rfl
  · simp only
    rw [show p.2.2.2.1 = normCode p from rfl, loop_known ops hm]
    generalize ({ ofParams regex p with norm := m } : Tfidf).loop ops (countTokens ts) ops.zeroF [] = r
    rcases r with e | ⟨norm, results⟩
    · rfl
    · simp only
      rw [divisor_known ops hm (ofParams regex p)]

/-- Another number: the norm stays zero. -/
theorem execute_unknown (ops : TfOps D Fl) (regex : Str → Str → Except Err (List (Nat × Nat))) (p : TfidfParams)
    (hm : normOf (normCode p) = none) (doc : Str) :
    execute ops regex p doc = (ofParams regex p).execute { ops with oneF := ops.zeroF } doc := by
  have h1 : normCode p ≠ 1 := fun h => by rw [h] at hm; cases hm
  have h2 : normCode p ≠ 2 := fun h => by rw [h] at hm; cases hm
  have h3 : normCode p ≠ 3 := fun h => by rw [h] at hm; cases hm
  have hloop : ∀ (es : List (Str × UInt32)) (acc : List (UInt32 × Fl)),
      loop ops (normCode p) (ofParams regex p) es ops.zeroF acc =
        (ofParams regex p).loop { ops with oneF := ops.zeroF } es ops.zeroF acc ∧
      ∀ n r, loop ops (normCode p) (ofParams regex p) es ops.zeroF acc = .ok (n, r) → n = ops.zeroF := by
    intro es
    induction es with
    | nil => intro acc; exact ⟨rfl, fun n r h => by cases h; rfl⟩
    | cons e es ih =>
      intro acc
      rw [loop, Tfidf.loop]
      rcases (ofParams regex p).labels.find? e.1 with _ | i
      · exact ih _
      · simp only
        rw [show (ofParams regex p).idf { ops with oneF := ops.zeroF } e.1 = (ofParams regex p).idf ops e.1 from rfl]
        rcases (ofParams regex p).idf ops e.1 with x | idf
        · exact ⟨rfl, fun n r h => by cases h⟩
        · simp only
          rw [if_neg h1, if_neg h2]
          exact ih _
  unfold execute Tfidf.execute
  simp only
  generalize (ofParams regex p).text.executeTokens (ofParams regex p).lowercase doc = r
  rcases r with e | ts
  · rfl
  · simp only
    rw [show p.2.2.2.1 = normCode p from rfl]
    obtain ⟨e1, e2⟩ := hloop (countTokens ts) []
    rcases hr : loop ops (normCode p) (ofParams regex p) (countTokens ts) ops.zeroF [] with e | ⟨norm, results⟩
    · rw [hr] at e1
      rw [← e1]
    · have hz := e2 _ _ hr
      subst hz
      rw [hr] at e1
      rw [← e1]
      simp only
      unfold divisor
      simp only [if_neg h2, if_neg h3]
      rfl

theorem idf_ops (ops : TfOps D Fl) (z : Fl) (t : Tfidf) (w : Str) : t.idf { ops with oneF := z } w = t.idf ops w := rfl

theorem quotient_ops (ops : TfOps D Fl) (z n : Fl) (t : Tfidf) (ht : t.norm = .none) (idf : Str → D) (ts : List Str) (w : Str) :
    ({ ops with oneF := z } : TfOps D Fl).divF (t.weight { ops with oneF := z } idf ts w) (t.divisor { ops with oneF := z } n) =
      ops.divF (ops.toFloat (ops.mul (t.tf ops (UInt32.ofNat (ts.count w))) (idf w))) z := by
  unfold Tfidf.divisor
  rw [ht]
  rfl

theorem div_zero_infinite {x : F32} (hx : Finite x) (h : 0 < value x) : div x (zero false) = ⟨0x7F800000⟩ := by
  have hz1 : isNaN (zero false : F32) = false := by decide
  have hz2 : isInf (zero false : F32) = false := by decide
  have hz3 : units (zero false : F32) = 0 := by decide
  have hz4 : neg? (zero false : F32) = false := by decide
  have hn : neg? x = false := by
    rcases hb : neg? x with _ | _
    · rfl
    · have := value_signed x
      rw [hb] at this
      have h2 : (0 : ℚ) ≤ (units x : ℚ) / 2 ^ (fmt F32).scale := by positivity
      rw [this, show signOf true = -1 from rfl] at h
      linarith
  have hu : units x ≠ 0 := by
    intro h0
    rw [value_signed, h0] at h
    simp at h
  unfold div
  rw [if_neg (by simp [FloatArith.Finite.not_nan hx, hz1]), if_neg (by simp [FloatArith.Finite.not_inf hx]),
    if_neg (by simp [hz2]), if_pos hz3, if_neg hu, hn, hz4]
  decide

/-- **C91** Any other number is accepted, and every value is then +infinity: for a document with the tokens `ts`, of which `ks`
are the different ones in the vocabulary, the vector has the size of the vocabulary and the value with all bits of the
exponent set for the terms in `ks`. -/
theorem C91_unknown {log : F64 → F64} (hlog : LogAccurate log) (regex : Str → Str → Except Err (List (Nat × Nat)))
    (p : TfidfParams) (t : Tfidf) (ht : ofParams regex p = t) (hcode : normCode p ∉ [1, 2, 3])
    (doc : Str) (ts : List Str)
    (hts : t.text.executeTokens t.lowercase doc = .ok ts) (h0 : 0 < t.labels.size) (h0' : 0 < t.docFreq.size)
    (hsz : t.labels.size < 2 ^ 64)
    (hlen : ts.length < 2 ^ 32) (htot : t.total.toNat + 1 < 2 ^ 32)
    (hdf : ∀ w ∈ ts, t.labels.find? w ≠ none →
      ∃ d, t.docFreq.find? w = some d ∧ 1 ≤ d.toNat ∧ d.toNat ≤ t.total.toNat)
    (ks : List Str) (hnd : ks.Nodup) (hks : ∀ w, w ∈ ks ↔ w ∈ ts ∧ t.labels.find? w ≠ none) (hne : ks ≠ [])
    (hinj : ∀ w ∈ ks, ∀ w' ∈ ks, t.labels.find? w = t.labels.find? w' → w = w') :
    tfidf.make p = .ok p ∧
      ∃ v, execute (floatOps log) regex p doc = .ok v ∧ v.numElements.toNat = t.labels.size ∧
        (v.values.Pairwise fun a b => a.index.toNat < b.index.toNat) ∧
        (∀ e ∈ v.values, e.value = ⟨0x7F800000⟩) ∧
        (∀ j, (∃ e ∈ v.values, e.index.toNat = j) ↔ ∃ w ∈ ks, ∃ i, t.labels.find? w = some i ∧ i.toNat = j) := by
  have hm : normOf (normCode p) = none := by
    simp only [List.mem_cons, List.not_mem_nil, or_false, not_or] at hcode
    unfold normOf
    rw [if_neg hcode.1, if_neg hcode.2.1, if_neg hcode.2.2]
  constructor
  · subst ht
    have e1 : p.1.entries.length ≠ 0 := Nat.pos_iff_ne_zero.1 h0
    have e2 : p.2.1.entries.length ≠ 0 := Nat.pos_iff_ne_zero.1 h0'
    exact (if_neg e1).trans (if_neg e2)
  rw [execute_unknown _ regex p hm, ht]
  obtain ⟨knd, kmem⟩ := t.known_spec ts
  have kmem' : ∀ w, w ∈ t.known ts ↔ w ∈ ts ∧ t.labels.find? w ≠ none := by
    intro w
    rw [kmem, Option.isSome_iff_ne_none]
  have hperm : (t.known ts).Perm ks := (List.perm_ext_iff_of_nodup knd hnd).2 fun w => by rw [kmem', hks]
  have hidf : ∀ w, ∃ y, ∃ Y : ℝ, w ∈ ts → t.labels.find? w ≠ none → t.idf (floatOps log) w = .ok y ∧ Finite y ∧
      Rel (1 / 2 ^ 50) (value y : ℝ) Y ∧ 1 ≤ Y ∧ Y ≤ 24 := by
    intro w
    by_cases hw : w ∈ ts ∧ t.labels.find? w ≠ none
    · obtain ⟨d, hd, hd1, hd2⟩ := hdf w hw.1 hw.2
      obtain ⟨y, hy⟩ := idf_near hlog t w d hd hd1 hd2 htot
      exact ⟨y, _, fun _ _ => hy⟩
    · exact ⟨zero false, 0, fun h1 h2 => absurd ⟨h1, h2⟩ hw⟩
  choose idf Y hidf using hidf
  obtain ⟨_, _, s3⟩ := Tfidf.execute_spec { floatOps log with oneF := (floatOps log).zeroF } t idf doc ts hts h0 hsz (by
    intro w hw hs
    rw [idf_ops]
    exact (hidf w hw (Option.isSome_iff_ne_none.1 hs)).1)
  have hnorm : t.norm = .none := by rw [← ht]; rfl
  obtain ⟨v, e1, e2, e3, e4, e5⟩ := s3 (fun h => hne (List.nil_perm.1 (h ▸ hperm))) (by
    intro a ha b hb heq
    exact hinj a (hperm.mem_iff.1 ha) b (hperm.mem_iff.1 hb) heq)
  refine ⟨v, e1, e2, e4, ?_, ?_⟩
  · intro e he
    obtain ⟨w, hw, rfl⟩ := List.mem_map.1 (e5.mem_iff.1 he)
    obtain ⟨hw1, hw2⟩ := (kmem' w).1 hw
    obtain ⟨_, i1, i2, i3, i4⟩ := hidf w hw1 hw2
    have hc : (UInt32.ofNat (ts.count w)).toNat = ts.count w :=
      UInt32.toNat_ofNat_of_lt' (Nat.lt_of_le_of_lt List.count_le_length hlen)
    obtain ⟨f1, f2, f3, f4⟩ := tf_near hlog t (UInt32.ofNat (ts.count w)) (by
      rw [hc]; exact List.count_pos_iff.2 hw1)
    obtain ⟨g1, g2, g3, g4⟩ := weight_near f1 i1 f2 i2 f3 f4 i3 i4
    have hpos : 0 < value (FloatArith.cast (mul (t.tf (floatOps log) (UInt32.ofNat (ts.count w))) (idf w)) : F32) := by
      have h1 := g2.lower
      have h2 : (0 : ℝ) < (value (FloatArith.cast (mul (t.tf (floatOps log) (UInt32.ofNat (ts.count w))) (idf w)) : F32) : ℝ) := by
        nlinarith
      exact_mod_cast h2
    have hd := div_zero_infinite g1 hpos
    rw [quotient_ops _ _ _ t hnorm]
    exact hd
  · intro j
    constructor
    · rintro ⟨e, he, rfl⟩
      obtain ⟨w, hw, rfl⟩ := List.mem_map.1 (e5.mem_iff.1 he)
      obtain ⟨i, hi⟩ := Option.ne_none_iff_exists'.1 ((kmem' w).1 hw).2
      exact ⟨w, hperm.mem_iff.1 hw, i, hi, by simp only [hi, Option.getD_some, UInt32.toNat_toUInt64]⟩
    · rintro ⟨w, hw, i, hi, rfl⟩
      exact ⟨_, e5.mem_iff.2 (List.mem_map_of_mem (hperm.mem_iff.2 hw)), by simp only [hi, Option.getD_some, UInt32.toNat_toUInt64]⟩

theorem has_bit (policy : UInt32) (i : Nat) (hi : i < 32) : has policy (UInt32.ofNat (2 ^ i)) = policy.toNat.testBit i := by
  have hf : (UInt32.ofNat (2 ^ i)).toNat = 2 ^ i :=
    UInt32.toNat_ofNat_of_lt' (Nat.pow_lt_pow_right (by norm_num) hi)
  have hn : (policy &&& UInt32.ofNat (2 ^ i) = UInt32.ofNat (2 ^ i)) ↔ policy.toNat.testBit i = true := by
    rw [← UInt32.toNat_inj, UInt32.toNat_and, hf]
    constructor
    · intro h
      have := congrArg (fun n => n.testBit i) h
      simpa [Nat.testBit_two_pow_self] using this
    · intro h
      apply Nat.eq_of_testBit_eq
      intro j
      rw [Nat.testBit_and, Nat.testBit_two_pow]
      by_cases hj : i = j
      · subst hj; simp [h]
      · simp [hj]
  unfold has
  rw [Bool.eq_iff_iff, beq_iff_eq]
  exact hn

/-- **C91** The bits of the policy, from the lowest on, are the flags binary, use idf, smooth idf and sublinear tf, and the
analyzers 1, 2 and 3 are words, characters and characters within words: the transformer of C55 and C83 with these options. -/
theorem C91_options (ops : TfOps D Fl) (regex : Str → Str → Except Err (List (Nat × Nat)))
    (labels df : UMap Str UInt32) (total : UInt32) (norm : UInt8) (policy : UInt32) (lower : Bool)
    (analyzer : UInt8) (token : Str) (lo hi : UInt32) (m : NormMethod) (a : Analyzer)
    (hm : norm = 1 ∧ m = .l1 ∨ norm = 2 ∧ m = .l2 ∨ norm = 3 ∧ m = .none)
    (ha : analyzer = 1 ∧ a = .word ∨ analyzer = 2 ∧ a = .char ∨ analyzer = 3 ∧ a = .charwb) (doc : Str) :
    execute ops regex (labels, df, total, norm, policy, lower, analyzer, token, lo, hi) doc =
      ({ labels := labels, docFreq := df, total := total, norm := m
         binary := policy.toNat.testBit 0, useIdf := policy.toNat.testBit 1
         smoothIdf := policy.toNat.testBit 2, sublinearTf := policy.toNat.testBit 3, lowercase := lower
         text := ⟨a, if token.chars.isEmpty then none else some (regex token), lo.toNat, hi.toNat⟩ } : Tfidf).execute ops doc := by
  have h0 : has policy 1 = _ := has_bit policy 0 (by norm_num)
  have h1 : has policy 2 = _ := has_bit policy 1 (by norm_num)
  have h2 : has policy 4 = _ := has_bit policy 2 (by norm_num)
  have h3 : has policy 8 = _ := has_bit policy 3 (by norm_num)
  have han : analyzerOf analyzer = a := by
    rcases ha with ⟨rfl, rfl⟩ | ⟨rfl, rfl⟩ | ⟨rfl, rfl⟩ <;> rfl
  rw [C91_known ops regex _ m (by rcases hm with ⟨rfl, rfl⟩ | ⟨rfl, rfl⟩ | ⟨rfl, rfl⟩ <;> rfl)]
  unfold ofParams
  simp only
  rw [h0, h1, h2, h3, han]

/-- **C91** Of the policy only the four lowest bits matter, and every analyzer other than 1 and 2 is taken for 3. -/
theorem C91_other_options (ops : TfOps D Fl) (regex : Str → Str → Except Err (List (Nat × Nat)))
    (labels df : UMap Str UInt32) (total : UInt32) (norm : UInt8) (policy policy' : UInt32) (lower : Bool)
    (analyzer analyzer' : UInt8) (token : Str) (lo hi : UInt32)
    (hp : policy.toNat % 16 = policy'.toNat % 16)
    (ha : analyzer = analyzer' ∨ (analyzer ∉ [1, 2] ∧ analyzer' ∉ [1, 2])) (doc : Str) :
    execute ops regex (labels, df, total, norm, policy, lower, analyzer, token, lo, hi) doc =
      execute ops regex (labels, df, total, norm, policy', lower, analyzer', token, lo, hi) doc := by
  have hbit : ∀ flag : UInt32, flag.toNat < 16 → has policy flag = has policy' flag := by
    intro flag hf
    have h : policy &&& flag = policy' &&& flag := by
      apply UInt32.toNat_inj.1
      rw [UInt32.toNat_and, UInt32.toNat_and]
      have key : ∀ a : Nat, a &&& flag.toNat = (a % 16) &&& flag.toNat := by
        intro a
        apply Nat.eq_of_testBit_eq
        intro i
        rw [Nat.testBit_and, Nat.testBit_and, show (16 : Nat) = 2 ^ 4 from rfl, Nat.testBit_mod_two_pow]
        by_cases hi : i < 4
        · simp [hi]
        · have : flag.toNat.testBit i = false := by
            apply Nat.testBit_lt_two_pow
            exact lt_of_lt_of_le hf (by
              calc 16 = 2 ^ 4 := rfl
                _ ≤ 2 ^ i := Nat.pow_le_pow_right (by norm_num) (by omega))
          simp [this]
      rw [key policy.toNat, key policy'.toNat, hp]
    unfold has
    rw [h]
  have han : analyzerOf analyzer = analyzerOf analyzer' := by
    rcases ha with rfl | ⟨h1, h2⟩
    · rfl
    · simp only [List.mem_cons, List.not_mem_nil, or_false, not_or] at h1 h2
      unfold analyzerOf
      rw [if_neg h1.1, if_neg h1.2, if_neg h2.1, if_neg h2.2]
  have h : ofParams regex (labels, df, total, norm, policy, lower, analyzer, token, lo, hi) =
      ofParams regex (labels, df, total, norm, policy', lower, analyzer', token, lo, hi) := by
    unfold ofParams
    simp only
    rw [hbit 1 (by decide), hbit 2 (by decide), hbit 4 (by decide), hbit 8 (by decide), han]
  unfold execute
  rw [h]

/-- The members of a transformer trained with the norm 0: labels `a` ↦ 0 and `b` ↦ 1, document frequencies 1 and 2 of 3. -/
def sampleParams : TfidfParams :=
  (⟨[(⟨[97]⟩, 0), (⟨[98]⟩, 1)], by decide⟩, ⟨[(⟨[97]⟩, 1), (⟨[98]⟩, 2)], by decide⟩, 3, 0, 6, true, 1, ⟨[]⟩, 1, 1)

/-- **C91, refuted:** a number that stands for no norm is not rejected, and not ignored. -/
theorem C91_refuted : ∃ log : F64 → F64, LogAccurate log ∧ ∃ p : TfidfParams, normCode p ∉ [1, 2, 3] ∧ tfidf.make p = .ok p ∧
    ∃ v, execute (floatOps log) (fun _ _ => .ok []) p ⟨[65, 32, 98, 32, 120, 32, 97]⟩ = .ok v ∧
      v.values = [⟨⟨0x7F800000⟩, 0⟩, ⟨⟨0x7F800000⟩, 1⟩] := by
  obtain ⟨log, hlog⟩ := log_exists
  obtain ⟨hmake, v, h1, h2, h3, h4, h5⟩ := C91_unknown hlog (fun _ _ => .ok []) sampleParams _ rfl (by decide)
    ⟨[65, 32, 98, 32, 120, 32, 97]⟩ [⟨[97]⟩, ⟨[98]⟩, ⟨[120]⟩, ⟨[97]⟩] rfl (by decide) (by decide) (by decide) (by decide)
    (by decide) (by
      intro w hw hl
      simp only [List.mem_cons, List.not_mem_nil, or_false] at hw
      rcases hw with rfl | rfl | rfl | rfl
      · exact ⟨1, rfl, by decide, by decide⟩
      · exact ⟨2, rfl, by decide, by decide⟩
      · exact absurd rfl hl
      · exact ⟨1, rfl, by decide, by decide⟩)
    [⟨[97]⟩, ⟨[98]⟩] (by decide) (by
      intro w
      constructor
      · intro hw
        simp only [List.mem_cons, List.not_mem_nil, or_false] at hw
        rcases hw with rfl | rfl <;> exact ⟨by decide, by decide⟩
      · rintro ⟨hw, hl⟩
        simp only [List.mem_cons, List.not_mem_nil, or_false] at hw
        rcases hw with rfl | rfl | rfl | rfl
        · decide
        · decide
        · exact absurd rfl hl
        · decide) (by decide) (by decide)
  refine ⟨log, hlog, sampleParams, by decide, hmake, v, h1, ?_⟩
  have hidx : ∀ e ∈ v.values, e.index.toNat = 0 ∨ e.index.toNat = 1 := by
    intro e he
    obtain ⟨w, hw, i, hi, hj⟩ := (h5 _).1 ⟨e, he, rfl⟩
    simp only [List.mem_cons, List.not_mem_nil, or_false] at hw
    rcases hw with rfl | rfl
    · left; rw [← hj]; cases hi; rfl
    · right; rw [← hj]; cases hi; rfl
  obtain ⟨a, ha, ha0⟩ := (h5 0).2 ⟨⟨[97]⟩, by decide, 0, rfl, rfl⟩
  obtain ⟨b, hb, hb1⟩ := (h5 1).2 ⟨⟨[98]⟩, by decide, 1, rfl, rfl⟩
  have heq : ∀ (e : ValueEncoding F32) (n : UInt64), e ∈ v.values → e.index.toNat = n.toNat → e = ⟨⟨0x7F800000⟩, n⟩ := by
    intro e n he hn
    obtain ⟨x, i⟩ := e
    rw [show x = _ from h4 _ he, show i = n from UInt64.toNat_inj.1 hn]
  generalize v.values = l at h3 h4 hidx ha hb heq
  match l with
  | [] => cases ha
  | [x] =>
    rw [List.mem_singleton] at ha hb
    rw [ha] at ha0
    rw [hb] at hb1
    omega
  | x :: y :: [] =>
    obtain ⟨hx, -⟩ := List.pairwise_cons.1 h3
    have hxy := hx y (by simp)
    have hx' := hidx x (by simp)
    have hy' := hidx y (by simp)
    rw [heq x 0 (by simp) (by show _ = 0; omega), heq y 1 (by simp) (by show _ = 1; omega)]
  | x :: y :: z :: r =>
    obtain ⟨hx, h3'⟩ := List.pairwise_cons.1 h3
    obtain ⟨hy, -⟩ := List.pairwise_cons.1 h3'
    have := hx y (by simp)
    have := hy z (by simp)
    have := hidx x (by simp)
    have := hidx z (by simp)
    omega

/-- With the number 2 the same transformer has finite values (C83). -/
example : normOf 2 = some .l2 ∧ normOf 0 = none := by decide

end Feat.TfidfCodes
