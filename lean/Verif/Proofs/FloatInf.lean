import Verif.Proofs.FloatArith
import Verif.Model.FloatNorms
/-
Infinities in the arithmetic, and in running sums.
-/
namespace Feat.FloatArith
open FloatText

section
variable {T : Type} [FloType T] [Lawful T]

/-- A number is finite, infinite or not a number. -/
theorem finite_or {x : T} (hn : isNaN x = false) (hi : isInf x = false) : Finite x := by
  rw [finite_key]
  rw [isNaN_false] at hn
  rw [isInf_false] at hi
  omega

theorem isInf_make (neg : Bool) : isInf (make neg (fmt T).inf : T) = true := by
  unfold isInf
  rw [make_pat neg (inf_lt_signBit T)]
  simp

omit [Lawful T] in
theorem isNaN_of_inf {x : T} (h : isInf x = true) : isNaN x = false := by
  unfold isInf at h
  unfold isNaN
  rw [decide_eq_true_iff] at h
  simp [h]

theorem isInf_absolute (x : T) : isInf (absolute x) = isInf x := by
  unfold isInf absolute
  rw [make_pat false (pat_lt x)]

theorem isNaN_absolute (x : T) : isNaN (absolute x) = isNaN x := by
  unfold isNaN absolute
  rw [make_pat false (pat_lt x)]

theorem isInf_cast {S : Type} [FloType S] {x : S} (h : isInf x = true) (hn : isNaN x = false) : isInf (cast x : T) = true := by
  unfold cast
  rw [if_neg (by rw [hn]; simp), if_pos h]
  exact isInf_make _

/-- A finite number and an infinity. -/
theorem isInf_add {x y : T} (hx : Finite x) (hy : isInf y = true) : isInf (add x y) = true := by
  unfold add
  rw [if_neg (by rw [Finite.not_nan hx, isNaN_of_inf hy]; simp), if_neg (by rw [Finite.not_inf hx]; simp), if_pos hy]
  exact hy

theorem isInf_mul_self {x : T} (hx : isInf x = true) : isInf (mul x x) = true := by
  have h0 : units x ≠ 0 := by
    intro h
    rw [units_eq_zero] at h
    have := key_natAbs x
    rw [h] at this
    unfold isInf at hx
    rw [decide_eq_true_iff, ← this] at hx
    have := inf_pos T
    simp at hx
    omega
  unfold mul
  rw [if_neg (by rw [isNaN_of_inf hx]; simp), if_pos hx, if_neg h0]
  exact isInf_make _

omit [Lawful T] in
theorem not_nan_rnd {x : T} {q : ℚ} (h : key x = rnd (fmt T) q) : isNaN x = false := by
  rw [isNaN_false, h]
  exact rnd_bound q

theorem not_finite_of_inf {x : T} (h : isInf x = true) : ¬ Finite x := by
  intro hf
  rw [Finite.not_inf hf] at h
  cases h

/-- Infinities are not equal to finite numbers. -/
theorem eq_inf {x y : T} (hx : isInf x = true) (hy : Finite y) : eq x y = false := by
  by_contra h
  rw [Bool.not_eq_false] at h
  unfold eq at h
  simp only [Bool.and_eq_true, decide_eq_true_iff] at h
  rw [finite_key, ← h.2, ← finite_key] at hy
  exact not_finite_of_inf hx hy

end
end Feat.FloatArith

namespace Feat.FloatNorms
open FloatText FloatArith
variable {V : Type}

/-- A sum either throws or stays finite; an infinity makes it throw. -/
theorem accumulate_inf {a d : F80} (ha : Finite a) (hd : isNaN d = false) :
    (∃ b, accumulate a d = (.error .runtimeError, b)) ∨ (isInf d = false ∧ ∃ b, accumulate a d = (.ok (), b) ∧ Finite b) := by
  unfold accumulate
  split_ifs with h1 h2
  · exact .inl ⟨_, rfl⟩
  · exact .inl ⟨_, rfl⟩
  · right
    have hd' : isInf d = false := by
      by_contra h
      rw [Bool.not_eq_false] at h
      exact h2 (isInf_add ha h)
    refine ⟨hd', _, rfl, ?_⟩
    exact finite_or (not_nan_rnd (key_add ha (finite_or hd hd'))) (by simpa using h2)

/-- What a sum of the `g`s of a row is made of: numbers or infinities; an infinity in the row yields one. -/
structure Summand (k : NormInput V) (g : F80 → F80) (inf : V → Prop) : Prop where
  not_nan : ∀ x, k.null x = false → isNaN (g (k.toL x)) = false
  inf : ∀ x, inf x → k.null x = false ∧ isInf (g (k.toL x)) = true

theorem updateAll_inf {k : NormInput V} {g : F80 → F80} {inf : V → Prop} (L : Summand k g inf) (c : F80 → F80) (row : List V) :
    ∀ s : Acc, Finite s.acc →
    (∃ s', updateAll k ⟨fun a x => accumulate a (g x), c⟩ row s = (.error .runtimeError, s')) ∨
    ((∀ x ∈ row, ¬ inf x) ∧ ∃ s', updateAll k ⟨fun a x => accumulate a (g x), c⟩ row s = (.ok (), s') ∧ Finite s'.acc) := by
  induction row with
  | nil => intro s hs; exact .inr ⟨by simp, s, rfl, hs⟩
  | cons x row ih =>
    intro s hs
    unfold updateAll
    cases hx : k.null x with
    | true =>
      simp only [if_true]
      rcases ih s hs with h | ⟨h1, h2⟩
      · exact .inl h
      · refine .inr ⟨?_, h2⟩
        intro y hy
        rcases List.mem_cons.1 hy with rfl | hy
        · intro hi
          have := (L.inf y hi).1
          rw [hx] at this
          cases this
        · exact h1 y hy
    | false =>
      simp only [Bool.false_eq_true, if_false]
      rcases accumulate_inf hs (L.not_nan x hx) with ⟨b, h⟩ | ⟨hi, b, h, hb⟩
      · simp only [h]
        exact .inl ⟨_, rfl⟩
      · simp only [h]
        rcases ih ⟨b, true⟩ hb with h | ⟨h1, h2⟩
        · exact .inl h
        · refine .inr ⟨?_, h2⟩
          intro y hy
          rcases List.mem_cons.1 hy with rfl | hy
          · intro hy
            rw [(L.inf y hy).2] at hi
            cases hi
          · exact h1 y hy

/-- Training on rows one of which has an infinity. -/
theorem fitAll_inf {k : NormInput V} {g : F80 → F80} {inf : V → Prop} (L : Summand k g inf) (c : F80 → F80) {α : Type}
    (wrap : List F64 → α) (rows : List (List V)) (hinf : ∃ row ∈ rows, ∃ x ∈ row, inf x) : ∀ l : List F64,
    ∃ s, (normsPolicy k ⟨fun a x => accumulate a (g x), c⟩ wrap).fitAll rows (l, Acc.start) = (.error .runtimeError, s) := by
  induction rows with
  | nil => obtain ⟨_, h, _⟩ := hinf; simp at h
  | cons r rows ih =>
    intro l
    have hz : Finite Acc.start.acc := finite_zero _
    rcases updateAll_inf L c r Acc.start hz with ⟨s', h⟩ | ⟨h1, s', h, _⟩
    · have hf : (normsPolicy k ⟨fun a x => accumulate a (g x), c⟩ wrap).fit r (l, Acc.start) = (.error .runtimeError, (l, s')) := by
        simp only [normsPolicy, h]
      exact ⟨(l, s'), by simp only [Policy.fitAll, hf]⟩
    · obtain ⟨row, hr, x, hx, hi⟩ := hinf
      have hr' : row ∈ rows := by
        rcases List.mem_cons.1 hr with rfl | hr
        · exact absurd hi (h1 x hx)
        · exact hr
      cases hv : s'.valid with
      | false =>
        have hf : (normsPolicy k ⟨fun a x => accumulate a (g x), c⟩ wrap).fit r (l, Acc.start) = (.error .runtimeError, (l, s')) := by
          simp only [normsPolicy, h, hv, Bool.false_eq_true, if_false]
        exact ⟨(l, s'), by simp only [Policy.fitAll, hf]⟩
      | true =>
        have hf : (normsPolicy k ⟨fun a x => accumulate a (g x), c⟩ wrap).fit r (l, Acc.start)
            = (.ok (), (l ++ [FloatArith.cast (c s'.acc)], Acc.start)) := by
          simp only [normsPolicy, h, hv, if_true]
        obtain ⟨s, hs⟩ := ih ⟨row, hr', x, hx, hi⟩ (l ++ [FloatArith.cast (c s'.acc)])
        exact ⟨s, by simp only [Policy.fitAll, hf, hs]⟩

theorem flo_abs_summand {T : Type} [FloType T] [Lawful T] [Wider T F80] :
    Summand (floNorm T) absolute (fun x => IsInf x) where
  not_nan x h := by
    rw [isNaN_absolute]
    show isNaN (FloatArith.cast x : F80) = false
    cases hi : isInf x with
    | true => exact isNaN_of_inf (isInf_cast hi h)
    | false => exact Finite.not_nan (cast_exact (finite_or h hi)).1
  inf x h := by
    rw [← isInf_iff] at h
    refine ⟨isNaN_of_inf h, ?_⟩
    rw [isInf_absolute]
    exact isInf_cast h (isNaN_of_inf h)

theorem flo_sq_summand {T : Type} [FloType T] [Lawful T] [Wider T F80] :
    Summand (floNorm T) (fun x => mul (absolute x) (absolute x)) (fun x => IsInf x) where
  not_nan x h := by
    have h := (flo_abs_summand (T := T)).not_nan x h
    cases hi : isInf (absolute ((floNorm T).toL x)) with
    | true => exact isNaN_of_inf (isInf_mul_self hi)
    | false =>
      have hf := finite_or h hi
      exact not_nan_rnd (key_mul hf hf)
  inf x h := by
    obtain ⟨h1, h2⟩ := (flo_abs_summand (T := T)).inf x h
    exact ⟨h1, isInf_mul_self h2⟩

end Feat.FloatNorms
