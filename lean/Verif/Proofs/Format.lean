import Verif.Spec.Format
import Verif.Proofs.Codec
import Verif.Model.Transformers
import Mathlib.Tactic.Ring
/-
Reading operations follow the archive format: compositional lemmas.
-/
namespace Feat
variable {α β : Type}

theorem Follows.pure (v : α) : Follows (pure v) (fun bs => .done v bs) := by
  intro h space base pre bs _
  exact ⟨[], rfl, by simp [M.pure_run]⟩

theorem Follows.refuse (e : Err) (he : e.isException) :
    Follows (M.throw e : M Archive α) (fun _ => .refused) :=
  fun _ _ _ _ _ _ => ⟨e, _, rfl, he⟩

theorem Follows.undefine : Follows (M.throw .ub : M Archive α) (fun _ => .undefined) :=
  fun _ _ _ _ _ _ => ⟨_, rfl⟩

theorem Follows.bind {m : M Archive α} {f : α → M Archive β} {p : Parser α}
    {q : α → Parser β} (hm : Follows m p) (hf : ∀ v, Follows (f v) (q v)) :
    Follows (m >>= f) (fun bs => (p bs).andThen q) := by
  intro h space base pre bs hr
  have h1 := hm h space base pre bs hr
  cases hp : p bs with
  | refused =>
    rw [hp] at h1
    obtain ⟨e, a', h2, h3⟩ := h1
    simp only [hp, Parsed.andThen]
    exact ⟨e, a', M.bind_error _ h2, h3⟩
  | undefined =>
    rw [hp] at h1
    obtain ⟨a', h2⟩ := h1
    simp only [hp, Parsed.andThen]
    exact ⟨a', M.bind_error _ h2⟩
  | done v rest =>
    rw [hp] at h1
    obtain ⟨used, rfl, h2⟩ := h1
    have e1 : pre ++ (used ++ rest) = pre ++ used ++ rest := by simp
    rw [M.bind_ok _ h2]
    have h3 := hf v h space base (pre ++ used) rest (by rw [← e1]; exact hr)
    simp only [hp, Parsed.andThen]
    cases hq : q v rest with
    | refused => rw [hq] at h3; rw [e1]; exact h3
    | undefined => rw [hq] at h3; rw [e1]; exact h3
    | done w rest' =>
      rw [hq] at h3
      obtain ⟨u', rfl, h4⟩ := h3
      refine ⟨used ++ u', by simp, ?_⟩
      rw [e1, h4]; simp

theorem Follows.congr {m : M Archive α} {p q : Parser α} (hm : Follows m p) (h : ∀ bs, p bs = q bs) :
    Follows m q := by
  have : p = q := funext h
  rw [← this]; exact hm

theorem Settled.done (v : α) : Settled (fun bs => .done v bs) := fun _ _ => rfl
theorem Settled.refused : Settled (fun _ => (.refused : Parsed α)) := fun _ _ => trivial
theorem Settled.undefined : Settled (fun _ => (.undefined : Parsed α)) := fun _ _ => rfl

theorem Settled.bind {p : Parser α} {q : α → Parser β} (hp : Settled p) (hq : ∀ v, Settled (q v)) :
    Settled (fun bs => (p bs).andThen q) := by
  intro bs more
  have h1 := hp bs more
  cases h : p bs with
  | refused => simp only [h, Parsed.andThen]
  | undefined => rw [h] at h1; simp only [h, h1, Parsed.andThen]
  | done v rest =>
    rw [h] at h1
    simp only [h, h1, Parsed.andThen]
    exact hq v rest more

theorem andThen_done {p : Parsed α} {q : α → List UInt8 → Parsed β} {v : β} {rest : List UInt8}
    (h : p.andThen q = .done v rest) : ∃ a r, p = .done a r ∧ q a r = .done v rest := by
  cases p with
  | done a r => exact ⟨a, r, rfl, h⟩
  | refused => cases h
  | undefined => cases h

theorem number_leNat (bs : List UInt8) : number bs = leNat bs := by
  induction bs with
  | nil => rfl
  | cons b bs ih => show b.toNat + 256 * number bs = _; rw [ih]; rfl

theorem number_lt (bs : List UInt8) : number bs < 256 ^ bs.length := by
  induction bs with
  | nil => decide
  | cons b bs ih =>
    show b.toNat + 256 * number bs < 256 ^ (bs.length + 1)
    have := b.toNat_lt
    rw [Nat.pow_succ]; omega

/-- Raw bytes: the first `n` of those left. -/
theorem Follows.raw (n : Nat) (hn : 0 < n) : Follows (Archive.deserializeRaw n)
    (fun bs => if bs.length < n then .refused else .done (bs.take n) (bs.drop n)) := by
  intro h space base pre bs hr
  by_cases hl : bs.length < n
  · simp only [if_pos hl]
    unfold Roomy at hr
    simp only [List.length_append] at hr
    have hrem : (base + (pre ++ bs).length + space - (base + pre.length)) % space = bs.length := by
      have : base + (pre ++ bs).length + space - (base + pre.length) = bs.length + space := by
        simp only [List.length_append]; omega
      rw [this, Nat.add_mod_right]; exact Nat.mod_eq_of_lt (by omega)
    refine ⟨.runtimeError, Archive.rd h space base (pre ++ bs) pre.length, ?_, trivial⟩
    simp only [Archive.deserializeRaw, Archive.rd, Archive.endp, hrem]
    rw [if_neg (by simp), if_pos hl]
  · simp only [if_neg hl]
    refine ⟨bs.take n, (List.take_append_drop n bs).symm, ?_⟩
    have h1 := deserializeRaw_reads n hn (bs.take n) (by rw [List.length_take]; omega) h space base pre
      (bs.drop n)
    rw [List.append_assoc, List.take_append_drop] at h1
    exact h1 hr

theorem Follows.scalar (T : Type) [Scalar T] :
    Follows (Scalar.read T) (fixed (Scalar.size T) Scalar.dec) := by
  intro h space base pre bs hr
  have h1 := Follows.raw (Scalar.size T) Scalar.size_pos h space base pre bs hr
  unfold fixed
  by_cases hl : bs.length < Scalar.size T
  · simp only [if_pos hl] at h1 ⊢
    obtain ⟨e, a', h2, h3⟩ := h1
    exact ⟨e, a', by unfold Scalar.read; exact M.bind_error _ h2, h3⟩
  · simp only [if_neg hl] at h1 ⊢
    obtain ⟨used, hu, h2⟩ := h1
    have key : Scalar.read T (.rd h space base (pre ++ bs) pre.length) =
        (match Scalar.dec (T := T) (leNat (bs.take (Scalar.size T))) with
          | some v => Pure.pure v
          | none => M.throw .ub : M Archive T)
          (.rd h space base (pre ++ bs) (pre ++ used).length) := by
      unfold Scalar.read
      rw [M.bind_ok _ h2, M.bind_run]
      cases h <;> simp [M.get, Archive.rd, Scalar.ofObjBytes, swapBytes_eq_reverse] <;> rfl
    rw [key, number_leNat]
    cases Scalar.dec (T := T) (leNat (bs.take (Scalar.size T))) with
    | none => exact ⟨_, rfl⟩
    | some v => exact ⟨used, hu, rfl⟩

theorem Settled.fixed (n : Nat) (value : Nat → Option α) : Settled (fixed n value) := by
  intro bs more
  unfold Feat.fixed
  by_cases hl : bs.length < n
  · simp only [if_pos hl]
  · have h2 : ¬ (bs ++ more).length < n := by rw [List.length_append]; omega
    simp only [if_neg hl, if_neg h2]
    rw [List.take_append_of_le_length (by omega), List.drop_append_of_le_length (by omega)]
    cases value (number (bs.take n)) <;> rfl

/-- The reading half of a type follows its format, and what it yields can be written again. -/
class Formatted (T : Type) [Traits T] [Fits T] [Format T] : Prop where
  follows : Follows (Traits.deserialize : M Archive T) Format.parse
  settled : Settled (Format.parse (T := T))
  fits : ∀ bs (v : T) rest, Format.parse bs = .done v rest → Fits.fits v

/-- The format of a scalar is its size and its values. -/
class FormattedScalar (T : Type) [Scalar T] [Format T] : Prop where
  parse_eq : (Format.parse : Parser T) = fixed (Scalar.size T) Scalar.dec

theorem fixed_congr {n : Nat} {f g : Nat → Option α} (h : ∀ k, k < 256 ^ n → f k = g k) :
    fixed n f = fixed n g := by
  funext bs
  unfold fixed
  split
  · rfl
  · rename_i hl
    rw [h]
    have := number_lt (bs.take n)
    rwa [List.length_take, Nat.min_eq_left (by omega)] at this

instance : FormattedScalar UInt8 := ⟨rfl⟩
instance : FormattedScalar UInt16 := ⟨rfl⟩
instance : FormattedScalar UInt32 := ⟨rfl⟩
instance : FormattedScalar UInt64 := ⟨rfl⟩
instance : FormattedScalar F32 := ⟨rfl⟩
instance : FormattedScalar F64 := ⟨rfl⟩
instance : FormattedScalar Bool := ⟨rfl⟩

/-- Two's complement. -/
theorem signed_bits (n k : Nat) (hn : 0 < n) (hk : k < 2 ^ n) :
    BitVec.ofInt n (signedValue n k) = BitVec.ofNat n k := by
  apply BitVec.eq_of_toNat_eq
  rw [BitVec.toNat_ofInt, BitVec.toNat_ofNat]
  have e : ((signedValue n k) % ((2 ^ n : Nat) : Int)) = (k : Int) := by
    unfold signedValue
    split
    · exact Int.emod_eq_of_lt (by omega) (by exact_mod_cast hk)
    · have : (k : Int) - 2 ^ n = k + (2 ^ n : Nat) * (-1) := by push_cast; ring
      rw [this, Int.add_mul_emod_self_left]
      exact Int.emod_eq_of_lt (by omega) (by exact_mod_cast hk)
  rw [e, Nat.mod_eq_of_lt hk]; rfl

instance : FormattedScalar Int8 := ⟨fixed_congr (n := 1) fun k hk =>
  congrArg some (Int8.toBitVec_inj.1 (signed_bits 8 k (by decide) (by simpa using hk)))⟩
instance : FormattedScalar Int16 := ⟨fixed_congr (n := 2) fun k hk =>
  congrArg some (Int16.toBitVec_inj.1 (signed_bits 16 k (by decide) (by simpa using hk)))⟩
instance : FormattedScalar Int32 := ⟨fixed_congr (n := 4) fun k hk =>
  congrArg some (Int32.toBitVec_inj.1 (signed_bits 32 k (by decide) (by simpa using hk)))⟩
instance : FormattedScalar Int64 := ⟨fixed_congr (n := 8) fun k hk =>
  congrArg some (Int64.toBitVec_inj.1 (signed_bits 64 k (by decide) (by simpa using hk)))⟩

instance {T : Type} [Scalar T] [Format T] [FormattedScalar T] : Formatted T where
  follows := by rw [FormattedScalar.parse_eq]; exact Follows.scalar T
  settled := by rw [FormattedScalar.parse_eq]; exact Settled.fixed _ _
  fits _ _ _ _ := trivial

theorem follows_u32 : Follows (Scalar.read UInt32) Format.parse := Follows.scalar UInt32

/-! ### Strings -/

private def strRest (n : Nat) : M Archive Str := do
  let p ← Archive.getBufferPtr
  Archive.updateBufferPtr n
  let bs ← Archive.readMem p n
  pure ⟨bs⟩

private theorem strRest_follows (n : Nat) (hn : 0 < n) (hlt : n < 2 ^ 32) : Follows (strRest n)
    (fun bs => if bs.length < n then .refused else .done ⟨bs.take n⟩ (bs.drop n)) := by
  intro h space base pre bs hr
  unfold Roomy at hr
  rw [List.length_append] at hr
  unfold strRest
  have hm : (base + pre.length + n) % space = base + pre.length + n := Nat.mod_eq_of_lt (by omega)
  by_cases hl : bs.length < n
  · simp only [if_pos hl]
    by_cases h0 : bs = []
    · subst h0
      refine ⟨.runtimeError, Archive.rd h space base (pre ++ []) pre.length, ?_, trivial⟩
      apply M.bind_error
      simp [Archive.getBufferPtr, Archive.rd, Archive.endp]
    · have hpos : 0 < bs.length := List.length_pos_iff.2 h0
      refine ⟨.invalidArgument, Archive.rd h space base (pre ++ bs) pre.length, ?_, trivial⟩
      have h1 : Archive.getBufferPtr (Archive.rd h space base (pre ++ bs) pre.length)
          = (.ok (base + pre.length), Archive.rd h space base (pre ++ bs) pre.length) := by
        simp only [Archive.getBufferPtr, Archive.rd, Archive.endp]
        rw [if_neg (by simp), if_neg (by simp only [List.length_append]; omega)]
      rw [M.bind_ok _ h1]
      apply M.bind_error
      simp only [Archive.updateBufferPtr, Archive.rd, Archive.endp, hm]
      rw [if_neg (by simp), if_pos (by simp only [List.length_append]; omega)]
  · simp only [if_neg hl]
    refine ⟨bs.take n, (List.take_append_drop n bs).symm, ?_⟩
    have h1 : Archive.getBufferPtr (Archive.rd h space base (pre ++ bs) pre.length)
        = (.ok (base + pre.length), Archive.rd h space base (pre ++ bs) pre.length) := by
      simp only [Archive.getBufferPtr, Archive.rd, Archive.endp]
      rw [if_neg (by simp), if_neg (by simp only [List.length_append]; omega)]
    have h2 : Archive.updateBufferPtr n (Archive.rd h space base (pre ++ bs) pre.length)
        = (.ok (), Archive.rd h space base (pre ++ bs) (pre ++ bs.take n).length) := by
      simp only [Archive.updateBufferPtr, Archive.rd, Archive.endp, hm]
      rw [if_neg (by simp), if_neg (by simp only [List.length_append]; omega)]
      rw [List.length_append, List.length_take, Nat.min_eq_left (by omega), Nat.add_assoc]
    have h3 : Archive.readMem (base + pre.length) n
        (Archive.rd h space base (pre ++ bs) (pre ++ bs.take n).length)
        = (.ok (bs.take n), Archive.rd h space base (pre ++ bs) (pre ++ bs.take n).length) := by
      have hmem : base ≤ base + pre.length ∧ base + pre.length + n ≤ base + (pre ++ bs).length := by
        simp only [List.length_append]; omega
      simp only [Archive.readMem, Archive.memAt, Archive.rd, Archive.endp]
      rw [if_pos hmem, Nat.add_sub_cancel_left, List.drop_left]
    rw [M.bind_ok _ h1, M.bind_ok _ h2, M.bind_ok _ h3, M.pure_run]

private theorem str_reads : (Traits.deserialize : M Archive Str) = (Scalar.read UInt32 >>= fun size =>
      if size.toNat ≠ 0 then strRest size.toNat else pure ⟨[]⟩) := rfl

instance : Formatted Str where
  follows := by
    rw [str_reads]
    refine Follows.bind follows_u32 fun n => ?_
    by_cases h0 : n.toNat = 0
    · simp only [h0, ne_eq, not_true_eq_false, if_false]
      exact (Follows.pure _).congr fun bs => by simp
    · rw [if_pos h0]
      exact strRest_follows _ (by omega) n.toNat_lt
  settled := by
    refine Settled.bind (FormattedScalar.parse_eq (T := UInt32) ▸ Settled.fixed _ _) fun n => ?_
    intro bs more
    by_cases hl : bs.length < n.toNat
    · simp only [if_pos hl]
    · have h2 : ¬ (bs ++ more).length < n.toNat := by rw [List.length_append]; omega
      simp only [if_neg hl, if_neg h2]
      rw [List.take_append_of_le_length (by omega), List.drop_append_of_le_length (by omega)]
  fits := by
    intro bs v rest h
    obtain ⟨n, r, _, h2⟩ := andThen_done h
    split at h2
    · cases h2
    · cases h2
      show (r.take n.toNat).length < 2 ^ 32
      rw [List.length_take]
      have := n.toNat_lt
      omega

/-! ### Sequences -/

section
variable {T : Type} [Traits T] [Fits T] [Format T] [Formatted T]

omit [Fits T] [Formatted T] in
theorem readN_follows (h : Follows (Traits.deserialize : M Archive T) Format.parse) (n : Nat) :
    Follows (readN n : M Archive (List T)) (items Format.parse n) := by
  induction n with
  | zero => exact Follows.pure []
  | succ n ih => exact Follows.bind h fun x => Follows.bind ih fun xs => Follows.pure (x :: xs)

theorem Settled.items {p : Parser α} (h : Settled p) (n : Nat) : Settled (items p n) := by
  induction n with
  | zero => exact Settled.done []
  | succ n ih => exact Settled.bind h fun x => Settled.bind ih fun xs => Settled.done (x :: xs)

theorem items_length {p : Parser α} {n : Nat} {bs : List UInt8} {l : List α} {rest : List UInt8}
    (h : items p n bs = .done l rest) : l.length = n := by
  induction n generalizing bs l rest with
  | zero => cases h; rfl
  | succ n ih =>
    obtain ⟨x, r, _, h2⟩ := andThen_done h
    obtain ⟨xs, r', h3, h4⟩ := andThen_done h2
    cases h4
    simp [ih h3]

theorem items_all {p : Parser α} {P : α → Prop} (hP : ∀ bs v rest, p bs = .done v rest → P v) {n : Nat}
    {bs : List UInt8} {l : List α} {rest : List UInt8} (h : items p n bs = .done l rest) :
    ∀ x ∈ l, P x := by
  induction n generalizing bs l rest with
  | zero => cases h; simp
  | succ n ih =>
    obtain ⟨x, r, h1, h2⟩ := andThen_done h
    obtain ⟨xs, r', h3, h4⟩ := andThen_done h2
    cases h4
    intro y hy
    rcases List.mem_cons.1 hy with rfl | hy
    · exact hP _ _ _ h1
    · exact ih h3 y hy

theorem Settled.u32 : Settled (Format.parse (T := UInt32)) := Formatted.settled

theorem Settled.counted {p : Parser α} (h : Settled p) : Settled (counted p) :=
  Settled.bind Settled.u32 fun n => Settled.items h n.toNat

theorem counted_length {p : Parser α} {bs : List UInt8} {l : List α} {rest : List UInt8}
    (h : counted p bs = .done l rest) : l.length < 2 ^ 32 := by
  obtain ⟨n, r, _, h2⟩ := andThen_done h
  rw [items_length h2]; exact n.toNat_lt

theorem counted_all {p : Parser α} {P : α → Prop} (hP : ∀ bs v rest, p bs = .done v rest → P v)
    {bs : List UInt8} {l : List α} {rest : List UInt8} (h : counted p bs = .done l rest) :
    ∀ x ∈ l, P x := by
  obtain ⟨n, r, _, h2⟩ := andThen_done h
  exact items_all hP h2

theorem Settled.mapped {p : Parser α} (h : Settled p) (f : α → β) : Settled (mapped f p) :=
  Settled.bind h fun a => Settled.done (f a)

instance : Formatted (List T) where
  follows := Follows.bind follows_u32 fun n => readN_follows Formatted.follows n.toNat
  settled := Settled.counted Formatted.settled
  fits _ _ _ h := ⟨counted_length h, counted_all Formatted.fits h⟩

instance {n : Nat} : Formatted (Arr T n) where
  follows := by
    refine Follows.bind (readN_follows Formatted.follows n) fun l => ?_
    by_cases h : l.length = n
    · simp only [h, dite_true]; exact Follows.pure _
    · simp only [h, dite_false]; exact Follows.undefine
  settled := by
    refine Settled.bind (Settled.items Formatted.settled n) fun l => ?_
    by_cases h : l.length = n
    · simp only [h, dite_true]; exact Settled.done _
    · simp only [h, dite_false]; exact Settled.undefined
  fits := by
    intro bs v rest h
    obtain ⟨l, r, h1, h2⟩ := andThen_done h
    split at h2
    · cases h2; exact items_all Formatted.fits h1
    · cases h2

instance {A B : Type} [Traits A] [Fits A] [Format A] [Formatted A] [Traits B] [Fits B] [Format B]
    [Formatted B] : Formatted (A × B) where
  follows := Follows.bind Formatted.follows fun a => Follows.bind Formatted.follows fun b =>
    Follows.pure (a, b)
  settled := Settled.bind Formatted.settled fun a => Settled.bind Formatted.settled fun b =>
    Settled.done (a, b)
  fits := by
    intro bs v rest h
    obtain ⟨a, r, h1, h2⟩ := andThen_done h
    obtain ⟨b, r', h3, h4⟩ := andThen_done h2
    cases h4
    exact ⟨Formatted.fits _ _ _ h1, Formatted.fits _ _ _ h3⟩

instance : Formatted (Option T) where
  follows := by
    refine Follows.bind (m := Scalar.read Bool) (p := Format.parse) (Follows.scalar Bool) fun b => ?_
    cases b with
    | false => exact Follows.pure none
    | true => exact Follows.bind Formatted.follows fun v => Follows.pure (some v)
  settled := by
    refine Settled.bind (Formatted.settled (T := Bool)) fun b => ?_
    cases b with
    | false => exact Settled.done none
    | true => exact Settled.mapped Formatted.settled some
  fits := by
    intro bs v rest h
    obtain ⟨b, r, _, h2⟩ := andThen_done h
    cases b with
    | false => cases h2; intro v hv; cases hv
    | true =>
      obtain ⟨x, r', h3, h4⟩ := andThen_done h2
      cases h4
      intro y hy
      cases hy
      exact Formatted.fits _ _ _ h3

instance : Formatted Unit where
  follows := Follows.pure ()
  settled := Settled.done ()
  fits _ _ _ _ := trivial

/-! ### Maps and sets -/

omit [Fits T] [Formatted T] in
theorem readInto_follows {C : Type} (put : C → T → C)
    (h : Follows (Traits.deserialize : M Archive T) Format.parse) (n : Nat) (c : C) :
    Follows (readInto put n c) (mapped (fun l => l.foldl put c) (items Format.parse n)) := by
  induction n generalizing c with
  | zero => exact Follows.pure c
  | succ n ih =>
    refine (Follows.bind h fun x => ih (put c x)).congr fun bs => ?_
    unfold mapped
    simp only [items]
    cases Format.parse (T := T) bs with
    | refused => rfl
    | undefined => rfl
    | done x rest =>
      simp only [Parsed.andThen]
      cases items (Format.parse (T := T)) n rest <;> rfl

omit [Fits T] [Formatted T] in
theorem counted_follows {C : Type} (put : C → T → C)
    (h : Follows (Traits.deserialize : M Archive T) Format.parse) (c : C) :
    Follows (Scalar.read UInt32 >>= fun size => readInto put size.toNat c)
      (mapped (fun l => l.foldl put c) (counted Format.parse)) := by
  refine (Follows.bind follows_u32 fun n => readInto_follows put h n.toNat c).congr fun bs => ?_
  simp only [mapped, counted]
  cases Format.parse (T := UInt32) bs <;> rfl
end

theorem mapped_done {f : α → β} {p : Parser α} {bs : List UInt8} {v : β} {rest : List UInt8}
    (h : mapped f p bs = .done v rest) : ∃ a, p bs = .done a rest ∧ f a = v := by
  obtain ⟨a, r, h1, h2⟩ := andThen_done h
  cases h2
  exact ⟨a, h1, rfl⟩

theorem OMap.fold_bound {K V : Type} [LinearOrder K] (l : List (K × V)) (m : OMap K V) :
    (l.foldl (fun (m : OMap K V) e => m.emplace e.1 e.2) m).entries.length ≤ m.entries.length + l.length ∧
    ∀ e ∈ (l.foldl (fun (m : OMap K V) e => m.emplace e.1 e.2) m).entries, e ∈ m.entries ∨ e ∈ l := by
  induction l generalizing m with
  | nil => simp
  | cons x l ih =>
    obtain ⟨h1, h2⟩ := ih (m.emplace x.1 x.2)
    have key : ∀ l' : List (K × V), (emplaceSorted x.1 x.2 l').length ≤ l'.length + 1 ∧
        ∀ e ∈ emplaceSorted x.1 x.2 l', e = x ∨ e ∈ l' := by
      intro l'
      induction l' with
      | nil => simp [emplaceSorted]
      | cons y ys ih =>
        obtain ⟨k', v'⟩ := y
        simp only [emplaceSorted]
        split
        · refine ⟨by simp, fun e he => ?_⟩
          rcases List.mem_cons.1 he with rfl | he
          · exact .inl rfl
          · exact .inr he
        · split
          · exact ⟨by simp, fun e he => .inr he⟩
          · refine ⟨by simp only [List.length_cons]; omega, fun e he => ?_⟩
            rcases List.mem_cons.1 he with rfl | he
            · exact .inr (by simp)
            · rcases ih.2 e he with h | h
              · exact .inl h
              · exact .inr (by simp [h])
    obtain ⟨k1, k2⟩ := key m.entries
    refine ⟨?_, ?_⟩
    · have : (m.emplace x.1 x.2).entries.length ≤ m.entries.length + 1 := k1
      simp only [List.foldl_cons, List.length_cons]; omega
    · intro e he
      rcases h2 e he with h | h
      · rcases k2 e h with rfl | h
        · exact .inr (by simp)
        · exact .inl h
      · exact .inr (by simp [h])

theorem UMap.fold_bound {K V : Type} [DecidableEq K] (l : List (K × V)) (m : UMap K V) :
    (l.foldl (fun (m : UMap K V) e => m.emplace e.1 e.2) m).entries.length ≤ m.entries.length + l.length ∧
    ∀ e ∈ (l.foldl (fun (m : UMap K V) e => m.emplace e.1 e.2) m).entries, e ∈ m.entries ∨ e ∈ l := by
  induction l generalizing m with
  | nil => simp
  | cons x l ih =>
    obtain ⟨h1, h2⟩ := ih (m.emplace x.1 x.2)
    have key : (m.emplace x.1 x.2).entries.length ≤ m.entries.length + 1 ∧
        ∀ e ∈ (m.emplace x.1 x.2).entries, e = x ∨ e ∈ m.entries := by
      unfold UMap.emplace
      split
      · exact ⟨by omega, fun e he => .inr he⟩
      · refine ⟨by simp, fun e he => ?_⟩
        rcases List.mem_append.1 he with h | h
        · exact .inr h
        · exact .inl (by simpa using h)
    refine ⟨?_, ?_⟩
    · have := key.1
      simp only [List.foldl_cons, List.length_cons]; omega
    · intro e he
      rcases h2 e he with h | h
      · rcases key.2 e h with rfl | h
        · exact .inr (by simp)
        · exact .inl h
      · exact .inr (by simp [h])

theorem USet.fold_bound {K : Type} [DecidableEq K] (l : List K) (m : USet K) :
    (l.foldl (fun (m : USet K) k => m.emplace k) m).elems.length ≤ m.elems.length + l.length ∧
    ∀ e ∈ (l.foldl (fun (m : USet K) k => m.emplace k) m).elems, e ∈ m.elems ∨ e ∈ l := by
  induction l generalizing m with
  | nil => simp
  | cons x l ih =>
    obtain ⟨h1, h2⟩ := ih (m.emplace x)
    have key : (m.emplace x).elems.length ≤ m.elems.length + 1 ∧
        ∀ e ∈ (m.emplace x).elems, e = x ∨ e ∈ m.elems := by
      unfold USet.emplace
      split
      · exact ⟨by omega, fun e he => .inr he⟩
      · refine ⟨by simp, fun e he => ?_⟩
        rcases List.mem_append.1 he with h | h
        · exact .inr h
        · exact .inl (by simpa using h)
    refine ⟨?_, ?_⟩
    · have := key.1
      simp only [List.foldl_cons, List.length_cons]; omega
    · intro e he
      rcases h2 e he with h | h
      · rcases key.2 e h with rfl | h
        · exact .inr (by simp)
        · exact .inl h
      · exact .inr (by simp [h])

section
variable {K V : Type} [Traits K] [Fits K] [Format K] [Formatted K] [Traits V] [Fits V] [Format V]
  [Formatted V]

instance [LinearOrder K] : Formatted (OMap K V) where
  follows := counted_follows (T := K × V) (fun (c : OMap K V) kv => c.emplace kv.1 kv.2)
    Formatted.follows ⟨[], by simp⟩
  settled := Settled.mapped (Settled.counted (Formatted.settled (T := K × V))) _
  fits := by
    intro bs v rest h
    obtain ⟨l, h1, rfl⟩ := mapped_done h
    obtain ⟨b1, b2⟩ := OMap.fold_bound l (⟨[], by simp⟩ : OMap K V)
    have hl := counted_length h1
    refine ⟨Nat.lt_of_le_of_lt b1 (by simpa using hl), fun e he => ?_⟩
    rcases b2 e he with h | h
    · simp at h
    · exact counted_all (Formatted.fits (T := K × V)) h1 e h

instance [DecidableEq K] : Formatted (UMap K V) where
  follows := counted_follows (T := K × V) (fun (c : UMap K V) kv => c.emplace kv.1 kv.2)
    Formatted.follows ⟨[], by simp⟩
  settled := Settled.mapped (Settled.counted (Formatted.settled (T := K × V))) _
  fits := by
    intro bs v rest h
    obtain ⟨l, h1, rfl⟩ := mapped_done h
    obtain ⟨b1, b2⟩ := UMap.fold_bound l (⟨[], by simp⟩ : UMap K V)
    have hl := counted_length h1
    refine ⟨Nat.lt_of_le_of_lt b1 (by simpa using hl), fun e he => ?_⟩
    rcases b2 e he with h | h
    · simp at h
    · exact counted_all (Formatted.fits (T := K × V)) h1 e h

instance [DecidableEq K] : Formatted (USet K) where
  follows := counted_follows (T := K) (fun (c : USet K) k => c.emplace k)
    Formatted.follows ⟨[], by simp⟩
  settled := Settled.mapped (Settled.counted (Formatted.settled (T := K))) _
  fits := by
    intro bs v rest h
    obtain ⟨l, h1, rfl⟩ := mapped_done h
    obtain ⟨b1, b2⟩ := USet.fold_bound l (⟨[], by simp⟩ : USet K)
    have hl := counted_length h1
    refine ⟨Nat.lt_of_le_of_lt b1 (by simpa using hl), fun e he => ?_⟩
    rcases b2 e he with h | h
    · simp at h
    · exact counted_all (Formatted.fits (T := K)) h1 e h
end

/-! ### Matrices and clock types -/

section
variable {T : Type} [Traits T] [Fits T] [Format T] [Formatted T]

omit [Fits T] [Formatted T] in
theorem readLines_follows (h : Follows (Traits.deserialize : M Archive T) Format.parse) (inner n : Nat) :
    Follows (readLines inner n : M Archive (List (List T))) (items (items Format.parse inner) n) := by
  induction n with
  | zero => exact Follows.pure []
  | succ n ih =>
    exact Follows.bind (readN_follows h inner) fun x => Follows.bind ih fun xs => Follows.pure (x :: xs)

private def matRest (T : Type) [Traits T] (cm : Bool) (inner outer : Nat) : M Archive (Mat T cm) := do
  let ls ← readLines inner outer
  if h : ∀ l ∈ ls, l.length = inner then pure ⟨inner, ls, h⟩ else M.throw .ub

omit [Fits T] [Format T] [Formatted T] in
private theorem mat_reads (cm : Bool) : (Traits.deserialize : M Archive (Mat T cm)) =
    ((Traits.deserialize : M Archive (Int64 × Int64)) >>= fun d =>
      if d.1.toInt < 0 ∨ d.2.toInt < 0 then M.throw .ub
      else matRest T cm (if cm then d.1 else d.2).toInt.toNat (if cm then d.2 else d.1).toInt.toNat) := by
  funext a
  show (Scalar.read Int64 >>= fun rows => Scalar.read Int64 >>= fun cols => _) a =
    ((Scalar.read Int64 >>= fun rows => Scalar.read Int64 >>= fun cols => pure (rows, cols)) >>= _) a
  rw [M.bind_run, M.bind_run, M.bind_run]
  rcases Scalar.read Int64 a with ⟨r1 | r1, a1⟩
  · rfl
  · dsimp only
    rw [M.bind_run, M.bind_run]
    rcases Scalar.read Int64 a1 with ⟨r2 | r2, a2⟩
    · rfl
    · simp only [M.pure_run]
      split
      · rfl
      · cases cm <;> rfl

instance {cm : Bool} : Formatted (Mat T cm) where
  follows := by
    rw [mat_reads]
    refine Follows.bind (Formatted.follows (T := Int64 × Int64)) fun d => ?_
    by_cases hd : d.1.toInt < 0 ∨ d.2.toInt < 0
    · simp only [if_pos hd]; exact Follows.undefine
    · simp only [if_neg hd]
      refine Follows.bind (readLines_follows Formatted.follows _ _) fun ls => ?_
      by_cases hl : ∀ l ∈ ls, l.length = (if cm then d.1 else d.2).toInt.toNat
      · simp only [dif_pos hl]; exact Follows.pure _
      · simp only [dif_neg hl]; exact Follows.undefine
  settled := by
    refine Settled.bind (Formatted.settled (T := Int64 × Int64)) fun d => ?_
    by_cases hd : d.1.toInt < 0 ∨ d.2.toInt < 0
    · simp only [if_pos hd]; exact Settled.undefined
    · simp only [if_neg hd]
      refine Settled.bind (Settled.items (Settled.items Formatted.settled _) _) fun ls => ?_
      by_cases hl : ∀ l ∈ ls, l.length = (if cm then d.1 else d.2).toInt.toNat
      · simp only [dif_pos hl]; exact Settled.done _
      · simp only [dif_neg hl]; exact Settled.undefined
  fits := by
    intro bs v rest h
    obtain ⟨d, r, _, h2⟩ := andThen_done h
    split at h2
    · cases h2
    · obtain ⟨ls, r', h3, h4⟩ := andThen_done h2
      by_cases hl : ∀ l ∈ ls, l.length = (if cm then d.1 else d.2).toInt.toNat
      · simp only [dif_pos hl] at h4
        cases h4
        have hb : ∀ x : Int64, x.toInt.toNat < 2 ^ 63 := by
          intro x
          have := x.toInt_lt
          omega
        refine ⟨hb _, ?_, ?_⟩
        · show ls.length < 2 ^ 63
          rw [items_length h3]; exact hb _
        · exact fun l hl => items_all (P := fun l => ∀ x ∈ l, Fits.fits x)
            (fun _ _ _ h => items_all Formatted.fits h) h3 l hl
      · simp only [dif_neg hl] at h4
        cases h4
end

theorem readUp_follows (q : Nat) : Follows (readUp q) (scaled q) := by
  refine Follows.bind (m := Scalar.read Int64) (p := Format.parse)
    (Formatted.follows (T := Int64)) fun n => ?_
  unfold castUp
  dsimp only
  by_cases h : -2 ^ 63 ≤ n.toInt * q ∧ n.toInt * q < 2 ^ 63
  · simp only [if_pos h]; exact Follows.pure _
  · simp only [if_neg h]; exact Follows.undefine

theorem scaled_settled (q : Nat) : Settled (scaled q) := by
  refine Settled.bind (Formatted.settled (T := Int64)) fun n => ?_
  split
  · exact Settled.done _
  · exact Settled.undefined

instance {q : Nat} : Formatted (Duration q) where
  follows := Follows.bind (readUp_follows q) fun t => Follows.pure (Duration.mk t)
  settled := Settled.mapped (scaled_settled q) _
  fits := by
    intro bs v rest h
    obtain ⟨t, h1, rfl⟩ := mapped_done h
    obtain ⟨n, r, _, h2⟩ := andThen_done h1
    split at h2
    · rename_i hb
      cases h2
      show (q : Int) ∣ (Int64.ofInt (n.toInt * q)).toInt
      rw [Int64.toInt_ofInt_of_le hb.1 hb.2]
      exact Dvd.intro_left _ rfl
    · cases h2

end Feat
