import Verif.Proofs.Windows
import Verif.Props.Transformers
/-
**C30** Lag/lead windows.
-/
namespace Feat

variable {A B : Type}

/-! ### Specification -/

/-- The value of the series at a position that may lie outside of it. -/
def seriesAt (null : A) (xs : List A) (k : Int) : A :=
  if 0 ≤ k then (xs[k.toNat]?).getD null else null

/-- The cell for the offset `d` and column `j` of horizon `H` of the output for row `i`: the value `H - 1 - j` rows
before row `i + d`. -/
def lagLeadCell (null : A) (xs : List A) (H : Nat) (d : Int) (i j : Nat) : A :=
  seriesAt null xs ((i : Int) + d - ((H : Int) - 1 - j))

/-- How far the furthest offset looks ahead. -/
def lead (deltas : List Int) : Nat := deltas.foldr (fun d m => max d.toNat m) 0

/-! ### The constant members -/

theorem maxElem_ge (x : Int) (l : List Int) : x ≤ maxElem x l ∧ ∀ y ∈ l, y ≤ maxElem x l := by
  induction l generalizing x with
  | nil => simp [maxElem]
  | cons z zs ih =>
    simp only [maxElem]
    obtain ⟨h1, h2⟩ := ih (if x < z then z else x)
    have h3 : x ≤ (if x < z then z else x) ∧ z ≤ (if x < z then z else x) := by
      split <;> omega
    refine ⟨by omega, ?_⟩
    intro y hy
    rcases List.mem_cons.1 hy with rfl | hy
    · omega
    · exact h2 y hy

theorem maxElem_mem (x : Int) (l : List Int) : maxElem x l = x ∨ maxElem x l ∈ l := by
  induction l generalizing x with
  | nil => simp [maxElem]
  | cons z zs ih =>
    simp only [maxElem]
    rcases ih (if x < z then z else x) with h | h
    · rw [h]; split <;> simp
    · exact .inr (by simp [h])

private theorem minElem_shift (c x : Int) (l : List Int) :
    minElem (x + c) (l.map (· + c)) = minElem x l + c := by
  induction l generalizing x with
  | nil => rfl
  | cons z zs ih =>
    simp only [minElem, List.map_cons]
    rw [← ih]
    congr 1
    by_cases h : z < x
    · rw [if_pos h, if_pos (by omega)]
    · rw [if_neg h, if_neg (by omega)]

private theorem maxElem_shift (c x : Int) (l : List Int) :
    maxElem (x + c) (l.map (· + c)) = maxElem x l + c := by
  induction l generalizing x with
  | nil => rfl
  | cons z zs ih =>
    simp only [maxElem, List.map_cons]
    rw [← ih]
    congr 1
    by_cases h : x < z
    · rw [if_pos h, if_pos (by omega)]
    · rw [if_neg h, if_neg (by omega)]

private theorem lead_spec (l : List Int) :
    (∀ d ∈ l, d ≤ (lead l : Int)) ∧ (lead l = 0 ∨ ∃ d ∈ l, d = (lead l : Int)) := by
  unfold lead
  induction l with
  | nil => simp
  | cons a l ih =>
    obtain ⟨h1, h2⟩ := ih
    simp only [List.foldr_cons]
    generalize List.foldr (fun d m => max d.toNat m) 0 l = m at h1 h2
    refine ⟨?_, ?_⟩
    · intro d hd
      rcases List.mem_cons.1 hd with rfl | hd
      · omega
      · have := h1 d hd; omega
    · by_cases ha : a.toNat ≤ m
      · rw [Nat.max_eq_right ha]
        rcases h2 with h | ⟨d, hd, h⟩
        · exact .inl h
        · exact .inr ⟨d, List.mem_cons_of_mem _ hd, h⟩
      · rw [Nat.max_eq_left (by omega)]
        exact .inr ⟨a, by simp, by omega⟩

private theorem lagLead_params (H : UInt32) (hH : 0 < H.toNat) (deltas : List Int64) (hne : deltas ≠ [])
    (hb : ∀ δ ∈ deltas, -2 ^ 31 ≤ δ.toInt ∧ δ.toInt < 2 ^ 31) :
    ∃ (p : LagLeadParams) (od : Nat), lagLead.make (H, deltas) = .ok p ∧ p.horizon = H ∧
      p.offsets.length = deltas.length ∧
      (∀ (k : Nat) d, deltas[k]? = some d → ∃ o, p.offsets[k]? = some o ∧ (o.toNat : Int) = d.toInt + od) ∧
      (∀ o ∈ p.offsets, (o.toNat : Int) ≤ od + lead (deltas.map Int64.toInt)) ∧
      p.bufferSize = H.toNat + od + lead (deltas.map Int64.toInt) ∧
      (-p.minDelta).toNat = od ∧ p.maxDelta.toNat = lead (deltas.map Int64.toInt) := by
  obtain ⟨δ₀, ds₀, rfl⟩ := List.exists_cons_of_ne_nil hne
  let d := δ₀.toInt
  let ds := ds₀.map Int64.toInt
  have hd : (δ₀ :: ds₀).map Int64.toInt = d :: ds := rfl
  have hb' : ∀ x ∈ d :: ds, -2 ^ 31 ≤ x ∧ x < 2 ^ 31 := by
    intro x hx
    rw [← hd] at hx
    obtain ⟨δ, hδ, rfl⟩ := List.mem_map.1 hx
    exact hb δ hδ
  obtain ⟨m1, m2⟩ := minElem_le d ds
  obtain ⟨M1, M2⟩ := maxElem_ge d ds
  have m3 : minElem d ds ∈ d :: ds := by
    rcases minElem_mem d ds with h | h
    · rw [h]; simp
    · simp [h]
  have M3 : maxElem d ds ∈ d :: ds := by
    rcases maxElem_mem d ds with h | h
    · rw [h]; simp
    · simp [h]
  have mle : ∀ x ∈ d :: ds, minElem d ds ≤ x ∧ x ≤ maxElem d ds := by
    intro x hx
    rcases List.mem_cons.1 hx with rfl | hx
    · exact ⟨m1, M1⟩
    · exact ⟨m2 x hx, M2 x hx⟩
  have hlead : lead (d :: ds) = (maxElem d ds).toNat := by
    obtain ⟨l1, l2⟩ := lead_spec (d :: ds)
    have h1 := l1 _ M3
    rcases l2 with h | ⟨x, hx, h⟩
    · omega
    · have := (mle x hx).2; omega
  rw [hd, hlead]
  have hm := hb' _ m3
  have hM := hb' _ M3
  generalize hmn : minElem d ds = mn at *
  generalize hmx : maxElem d ds = mx at *
  have hle : mn ≤ mx := (mle _ m3).2
  let od : UInt32 := CInt.ofInt (-(if mn < 0 then mn else 0))
  have hod : (od.toNat : Int) = -(if mn < 0 then mn else 0) := by
    apply CInt.toInt_ofInt (T := UInt32)
    · show (0 : Int) ≤ _; split <;> omega
    · show _ ≤ (4294967295 : Int); split <;> omega
  have hod1 : (od.toNat : Int) ≤ 2 ^ 31 ∧ -mn ≤ od.toNat ∧ (od.toNat : Int) = max (-mn) 0 := by
    rw [hod]; split <;> omega
  have hoff : ∀ x ∈ d :: ds, (((CInt.ofInt (x + od.toNat) : UInt32)).toNat : Int) = x + od.toNat := by
    intro x hx
    have h1 := hb' x hx
    have h2 := mle x hx
    apply CInt.toInt_ofInt (T := UInt32)
    · show (0 : Int) ≤ _; omega
    · show _ ≤ (4294967295 : Int); omega
  let p : LagLeadParams :=
    { horizon := H
      offsetDelta := od
      offsets := (d :: ds).map fun δ => CInt.ofInt (δ + od.toNat)
      bufferSize := H.toNat + (if mx < 0 then -mn else if mn ≥ 0 then mx else mx - mn : Int).toNat }
  have hmake : lagLead.make (H, δ₀ :: ds₀) = .ok p := by
    simp only [lagLead]
    rw [if_neg (by omega)]
    simp only [hd]
    rw [hmn, hmx, if_neg (by omega)]
  have hpoff : p.offsets = (d :: ds).map fun δ => (CInt.ofInt (δ + od.toNat) : UInt32) := rfl
  have hoffs : p.offsets.map (fun o => (o.toNat : Int)) = (d + od.toNat) :: ds.map (· + (od.toNat : Int)) := by
    rw [hpoff, List.map_map, ← List.map_cons (f := (· + (od.toNat : Int)))]
    apply List.map_congr_left
    intro x hx
    exact hoff x hx
  refine ⟨p, od.toNat, hmake, rfl, by simp [p, ds], ?_, ?_, ?_, ?_, ?_⟩
  · intro k δ hk
    refine ⟨CInt.ofInt (δ.toInt + od.toNat), ?_, ?_⟩
    · rw [hpoff, ← hd, List.map_map, List.getElem?_map, hk]
      rfl
    · apply hoff
      rw [← hd]
      exact List.mem_map_of_mem (List.mem_of_getElem? hk)
  · intro o ho
    rw [hpoff] at ho
    obtain ⟨x, hx, rfl⟩ := List.mem_map.1 ho
    rw [hoff x hx]
    have := (mle x hx).2
    omega
  · show H.toNat + _ = _
    rw [Nat.add_assoc]
    congr 1
    split
    · omega
    · split <;> omega
  · unfold LagLeadParams.minDelta
    rw [hoffs]
    simp only
    rw [minElem_shift, hmn]
    show (-(mn + (od.toNat : Int) - od.toNat)).toNat = _
    omega
  · unfold LagLeadParams.maxDelta
    rw [hoffs]
    simp only
    rw [maxElem_shift, hmx]
    show (mx + (od.toNat : Int) - od.toNat).toNat = _
    omega

/-! ### Running -/

/-- The matrix emitted when the stream so far, nulls included, is `s`. -/
private def matrixOf (p : LagLeadParams) (s : List A) : List (List A) :=
  p.offsets.map fun o => ((lastN p.bufferSize s).drop o.toNat).take p.horizon.toNat

/-- The outputs while `ys` are pushed after the stream `s`. -/
private def emits (p : LagLeadParams) : List A → List A → List (List (List A))
  | _, [] => []
  | s, y :: ys => (if p.bufferSize ≤ s.length + 1 then [matrixOf p (s ++ [y])] else []) ++ emits p (s ++ [y]) ys

private theorem readN_rep {b : CBuf A} {l : List A} (h : Rep b l) (n off : Nat) (hn : n + off ≤ l.length) :
    ∀ (m j : Nat), j + m = n →
      b.readN m ⟨false, b.max, (b.start + off + j) % b.max, n, j⟩ = .ok ((l.drop (off + j)).take m) := by
  intro m
  induction m with
  | zero => intro j _; simp [CBuf.readN]
  | succ m ih =>
    intro j hj
    unfold CBuf.readN
    have hlt : off + j < l.length := by omega
    have hd : b.deref ⟨false, b.max, (b.start + off + j) % b.max, n, j⟩ = .ok l[off + j] := by
      unfold CBuf.deref
      rw [if_neg (by simp; omega)]
      have := h.items (off + j) hlt
      rw [← Nat.add_assoc] at this
      simp only [this, List.getElem?_eq_getElem hlt]
    have hnx : CIter.next ⟨false, b.max, (b.start + off + j) % b.max, n, j⟩
        = .ok ⟨false, b.max, (b.start + off + (j + 1)) % b.max, n, j + 1⟩ := by
      unfold CIter.next
      rw [if_neg (by simp; omega)]
      simp only [Nat.mod_add_mod]
      rfl
    simp only [hd, hnx, ih (j + 1) (by omega)]
    congr 1
    rw [List.drop_eq_getElem_cons hlt, List.take_succ_cons]
    rfl

private theorem rows_rep (t : LagLead A) (l : List A) (h : Rep t.buffer l) (hfull : l.length = t.buffer.max)
    (hH : 0 < t.params.horizon.toNat) :
    ∀ os : List UInt32, (∀ o ∈ os, t.params.horizon.toNat + o.toNat ≤ t.buffer.max) →
      t.rows os = .ok (os.map fun o => (l.drop o.toNat).take t.params.horizon.toNat) := by
  intro os
  induction os with
  | nil => intro _; rfl
  | cons o os ih =>
    intro ho
    have h1 := ho o (by simp)
    unfold LagLead.rows
    have hr : t.buffer.range t.params.horizon.toNat o.toNat
        = .ok (⟨false, t.buffer.max, (t.buffer.start + o.toNat) % t.buffer.max, t.params.horizon.toNat, 0⟩,
            ⟨false, t.buffer.max, (t.buffer.start + t.params.horizon.toNat + o.toNat) % t.buffer.max, 0, 0⟩) := by
      unfold CBuf.range CIter.new
      have := h.len
      rw [if_neg (by omega), if_neg (by omega), if_neg (by omega), if_neg (by omega), if_neg (by omega),
        if_neg (by omega), if_neg (by omega), if_neg (by omega)]
      rfl
    have hrd := readN_rep h t.params.horizon.toNat o.toNat (by omega) t.params.horizon.toNat 0 (by omega)
    rw [Nat.add_zero, Nat.add_zero] at hrd
    simp only [hr, hrd, ih fun o' ho' => ho o' (List.mem_cons_of_mem _ ho')]
    rfl

/-- The state after the stream `s` was pushed. -/
private structure After (p : LagLeadParams) (s : List A) (t : LagLead A) : Prop where
  params : t.params = p
  max : t.buffer.max = p.bufferSize
  rep : Rep t.buffer (lastN p.bufferSize s)

private structure ParamsOk (p : LagLeadParams) : Prop where
  pos : 0 < p.horizon.toNat
  lt : p.horizon.toNat < 2 ^ 31
  num : p.offsets.length < 2 ^ 31
  fits : ∀ o ∈ p.offsets, p.horizon.toNat + o.toNat ≤ p.bufferSize

private theorem step_after {p : LagLeadParams} (hp : ParamsOk p) {s : List A} {t : LagLead A} (h : After p s t)
    (y : A) : ∃ t', After p (s ++ [y]) t' ∧
      t.step y = ⟨if p.bufferSize ≤ s.length + 1 then [matrixOf p (s ++ [y])] else [], none, t'⟩ := by
  obtain ⟨h1, h2, h3⟩ := h
  have h4 := rep_push h3 y
  rw [h2, lastN_append] at h4
  have hmax : (t.buffer.push y).max = p.bufferSize := by rw [push_max, h2]
  have hlen := h4.len
  rw [lastN_length] at hlen
  simp only [List.length_append, List.length_singleton] at hlen
  refine ⟨⟨t.params, t.buffer.push y⟩, ⟨h1, hmax, h4⟩, ?_⟩
  unfold LagLead.step CBuf.isFull
  simp only
  by_cases hf : p.bufferSize ≤ s.length + 1
  · have hfull : (t.buffer.push y).data.length = (t.buffer.push y).max := by rw [hmax, hlen]; omega
    rw [if_pos hf, if_neg (by simp [hfull])]
    rw [if_neg (by rw [h1]; rintro (h | h); exact absurd hp.lt (by omega); exact absurd hp.num (by omega))]
    have hr := rows_rep ⟨t.params, t.buffer.push y⟩ _ h4 (by rw [lastN_length]; simp; omega)
      (by rw [h1]; exact hp.pos) t.params.offsets
      (by rw [h1]; intro o ho; simp only; rw [hmax]; exact hp.fits o ho)
    rw [hr]
    unfold matrixOf
    rw [h1]
  · have hfull : ¬ (t.buffer.push y).data.length = (t.buffer.push y).max := by rw [hmax, hlen]; omega
    rw [if_neg hf, if_pos (by simp [hfull])]

private theorem execAll_after (null : A) (conv : B → A) {p : LagLeadParams} (hp : ParamsOk p) (xs : List B) :
    ∀ (s : List A) (t : LagLead A), After p s t → ∃ t', After p (s ++ xs.map conv) t' ∧
      (lagLeadXf null conv).execAll t xs = ⟨emits p s (xs.map conv), none, t'⟩ := by
  induction xs with
  | nil => intro s t h; exact ⟨t, by simpa using h, rfl⟩
  | cons x xs ih =>
    intro s t h
    obtain ⟨t₁, h1, h2⟩ := step_after hp h (conv x)
    obtain ⟨t₂, h3, h4⟩ := ih _ _ h1
    refine ⟨t₂, by simpa using h3, ?_⟩
    unfold Xf.execAll
    have e1 : (lagLeadXf null conv).exec t x = t.step (conv x) := rfl
    rw [e1, h2]
    simp only [h4]
    rfl

private theorem pad_after (null : A) {p : LagLeadParams} (hp : ParamsOk p) (n : Nat) :
    ∀ (s : List A) (t : LagLead A), After p s t → ∃ t', After p (s ++ List.replicate n null) t' ∧
      LagLead.pad null n t = ⟨emits p s (List.replicate n null), none, t'⟩ := by
  induction n with
  | zero => intro s t h; exact ⟨t, by simpa using h, rfl⟩
  | succ n ih =>
    intro s t h
    obtain ⟨t₁, h1, h2⟩ := step_after hp h null
    obtain ⟨t₂, h3, h4⟩ := ih _ _ h1
    refine ⟨t₂, by simpa [List.replicate_succ] using h3, ?_⟩
    unfold LagLead.pad
    rw [h2]
    simp only [h4]
    rfl

private theorem emits_append (p : LagLeadParams) (ys zs : List A) : ∀ s : List A,
    emits p s (ys ++ zs) = emits p s ys ++ emits p (s ++ ys) zs := by
  induction ys with
  | nil => intro s; simp [emits]
  | cons y ys ih => intro s; simp [emits, ih]

private theorem emits_eq (p : LagLeadParams) (ys : List A) : ∀ (s : List A) (e : Nat),
    e = p.bufferSize - 1 - s.length →
    emits p s ys = (List.range (ys.length - e)).map fun i => matrixOf p (s ++ ys.take (i + e + 1)) := by
  induction ys with
  | nil => intro s e _; simp [emits]
  | cons y ys ih =>
    intro s e he
    unfold emits
    rw [ih (s ++ [y]) (e - 1) (by simp; omega)]
    by_cases h : p.bufferSize ≤ s.length + 1
    · have : e = 0 := by omega
      subst this
      rw [if_pos h]
      simp only [List.length_cons, Nat.sub_zero, List.range_succ_eq_map, List.map_cons, List.map_map]
      simp only [List.singleton_append]
      congr 1
      apply List.map_congr_left
      intro i _
      simp
    · rw [if_neg h]
      have : 0 < e := by omega
      simp only [List.length_cons, List.nil_append]
      rw [show ys.length + 1 - e = ys.length - (e - 1) by omega]
      apply List.map_congr_left
      intro i _
      rw [show i + e + 1 = (i + (e - 1) + 1) + 1 by omega, List.take_succ_cons]
      simp

private theorem init_after (null : A) (p : LagLeadParams) (b : CBuf A) (hp : 0 < p.bufferSize) (od : Nat)
    (hod : (-p.minDelta).toNat = od) (hb : b.max = p.bufferSize) (hd : b.start = 0 ∧ b.data = []) :
    After p (List.replicate (p.horizon.toNat - 1 + od) null) (LagLead.init null ⟨p, b⟩) := by
  have h0 : Rep b (lastN b.max []) := by
    rw [lastN_of_le (Nat.zero_le _)]
    have h1 := rep_clear (b := b) (by omega)
    have h2 : b.clear = b := by
      obtain ⟨mx, st, dt⟩ := b
      obtain ⟨rfl, rfl⟩ := hd
      rfl
    rw [h2] at h1
    exact h1
  have h1 := rep_pushAll b [] h0 (List.replicate (p.horizon.toNat - 1) null)
  have h2 := rep_pushAll (b.pushAll (List.replicate (p.horizon.toNat - 1) null)) _
    (by rw [pushAll_max]; exact h1) (List.replicate od null)
  rw [pushAll_max, List.nil_append, List.replicate_append_replicate, hb] at h2
  refine ⟨rfl, ?_, ?_⟩
  · unfold LagLead.init
    simp only
    rw [pushAll_max, pushAll_max, hb]
  · unfold LagLead.init
    simp only
    rw [hod]
    exact h2

/-- **C30** For every horizon `1 ≤ H < 2³¹` and non-empty list of offsets between −2³¹ and 2³¹−1, and every series
followed by a flush: no exception; one output per input, in order; the output for row `i` has one row per offset `d`,
whose column `j` is the input at `i + d - (H - 1 - j)`, or null outside of the series; the outputs whose offsets
look at most at rows already seen are emitted immediately; and the flush leaves the transformer as new. -/
theorem C30_lag_lead (null : A) (conv : B → A) (H : UInt32) (hH : 0 < H.toNat) (hH' : H.toNat < 2 ^ 31)
    (deltas : List Int64) (hne : deltas ≠ []) (hnum : deltas.length < 2 ^ 31)
    (hb : ∀ δ ∈ deltas, -2 ^ 31 ≤ δ.toInt ∧ δ.toInt < 2 ^ 31) :
    ∃ t : LagLead A, LagLead.new null H deltas = .ok t ∧ ∀ xs : List B,
      ∃ outs, (lagLeadXf null conv).runAll t xs = ⟨outs, none, t⟩ ∧
        outs.length = xs.length ∧
        (∀ i < xs.length, ∃ m, outs[i]? = some m ∧ m.length = deltas.length ∧
          ∀ (k : Nat) d, deltas[k]? = some d → ∃ row, m[k]? = some row ∧ row.length = H.toNat ∧
            ∀ j < H.toNat, row[j]? = some (lagLeadCell null (xs.map conv) H.toNat d.toInt i j)) ∧
        ((lagLeadXf null conv).execAll t xs).outs
          = outs.take (xs.length - lead (deltas.map Int64.toInt)) := by
  obtain ⟨p, od, hmake, hph, hpl, hpo, hpf, hps, hpmin, hpmax⟩ := lagLead_params H hH deltas hne hb
  generalize hL : lead (deltas.map Int64.toInt) = L at *
  have hpok : ParamsOk p := ⟨by rw [hph]; exact hH, by rw [hph]; exact hH', by omega, by
    intro o ho
    have := hpf o ho
    rw [hph, hps]; omega⟩
  have hpos : 0 < p.bufferSize := by omega
  let t := LagLead.init null ⟨p, ⟨p.bufferSize, 0, []⟩⟩
  have ht : After p (List.replicate (H.toNat - 1 + od) null) t := by
    have := init_after null p ⟨p.bufferSize, 0, []⟩ hpos od hpmin rfl ⟨rfl, rfl⟩
    rw [hph] at this
    exact this
  refine ⟨t, ?_, ?_⟩
  · unfold LagLead.new CBuf.new
    rw [hmake]
    simp only
    rw [if_neg (by omega)]
  intro xs
  obtain ⟨t₁, h1, h2⟩ := execAll_after null conv hpok xs _ _ ht
  obtain ⟨t₂, h3, h4⟩ := pad_after null hpok L _ _ h1
  let ys := xs.map conv ++ List.replicate L null
  let s₀ := List.replicate (H.toNat - 1 + od) null
  have hem : emits p s₀ ys
      = (List.range xs.length).map fun i => matrixOf p (s₀ ++ ys.take (i + L + 1)) := by
    rw [emits_eq p ys s₀ L (by simp [s₀, hps]; omega)]
    simp [ys]
  have hnext : LagLead.init null { t₂ with buffer := t₂.buffer.clear } = t := by
    show LagLead.init null ⟨t₂.params, ⟨t₂.buffer.max, 0, []⟩⟩ = _
    rw [h3.params, h3.max]
  refine ⟨emits p s₀ ys, ?_, ?_, ?_, ?_⟩
  · unfold Xf.runAll
    rw [h2]
    have e1 : (lagLeadXf null conv).flush t₁ = t₁.flush null := rfl
    simp only [e1]
    unfold LagLead.flush
    rw [h1.params, hpmax, h4]
    simp only [hnext]
    rw [emits_append]
  · rw [hem]; simp
  · intro i hi
    refine ⟨matrixOf p (s₀ ++ ys.take (i + L + 1)), by rw [hem]; simp [hi], by simp [matrixOf, hpl], ?_⟩
    intro k d hk
    obtain ⟨o, ho, hod⟩ := hpo k d hk
    have hom := hpf o (List.mem_of_getElem? ho)
    refine ⟨((lastN p.bufferSize (s₀ ++ ys.take (i + L + 1))).drop o.toNat).take p.horizon.toNat,
      by unfold matrixOf; rw [List.getElem?_map, ho]; rfl, ?_, ?_⟩
    · rw [List.length_take, List.length_drop, lastN_length, hph, hps]
      simp [s₀, ys]; omega
    · intro j hj
      rw [hph, List.getElem?_take_of_lt hj, List.getElem?_drop]
      unfold lastN
      rw [List.getElem?_drop, hps]
      have hlen : (s₀ ++ ys.take (i + L + 1)).length - (H.toNat + od + L) = i := by
        simp [s₀, ys]; omega
      rw [hlen]
      unfold lagLeadCell seriesAt
      by_cases hneg : 0 ≤ (i : Int) + d.toInt - ((H.toNat : Int) - 1 - j)
      · rw [if_pos hneg, List.getElem?_append_right (by simp [s₀]; omega)]
        have hidx : i + (o.toNat + j) - s₀.length = ((i : Int) + d.toInt - ((H.toNat : Int) - 1 - j)).toNat := by
          simp [s₀]; omega
        rw [hidx]
        generalize hq : ((i : Int) + d.toInt - ((H.toNat : Int) - 1 - j)).toNat = q
        rw [List.getElem?_take_of_lt (by omega)]
        by_cases hqx : q < (xs.map conv).length
        · rw [List.getElem?_append_left hqx, List.getElem?_eq_getElem hqx]; rfl
        · rw [List.getElem?_append_right (by omega), List.getElem?_eq_none (l := xs.map conv) (by omega),
            List.getElem?_replicate, if_pos (by simp at hqx ⊢; omega)]
          rfl
      · rw [if_neg hneg, List.getElem?_append_left (by simp [s₀]; omega), List.getElem?_replicate,
          if_pos (by omega)]
  · rw [h2]
    show emits p s₀ (xs.map conv) = _
    rw [hem, emits_eq p (xs.map conv) s₀ L (by simp [s₀, hps]; omega)]
    rw [← List.map_take, List.take_range, List.length_map, Nat.min_eq_left (by omega)]
    apply List.map_congr_left
    intro i hi
    rw [List.mem_range] at hi
    congr 2
    show _ = List.take _ (_ ++ _)
    rw [List.take_append_of_le_length (by simp; omega)]

/-! Non-vacuity: horizon 2, offsets −1 and +1, the series 1, 2, 3. -/
example : ∃ t : LagLead (Option Nat), LagLead.new none 2 [-1, 1] = .ok t ∧
    ((lagLeadXf none some).runAll t [1, 2, 3]).outs
      = [[[none, none], [some 1, some 2]], [[none, some 1], [some 2, some 3]], [[some 1, some 2], [some 3, none]]] := by
  refine ⟨_, rfl, ?_⟩
  decide +kernel

/-- **C30** A horizon of zero and an empty list of offsets are rejected. -/
theorem C30_rejects (null : A) (H : UInt32) (deltas : List Int64) (h : H = 0 ∨ deltas = []) :
    LagLead.new null H deltas = .error .invalidArgument := by
  unfold LagLead.new
  have : lagLead.make (H, deltas) = .error .invalidArgument := by
    simp only [lagLead]
    rcases h with rfl | rfl
    · rw [if_pos (by rfl)]
    · split
      · rfl
      · rfl
  rw [this]

end Feat
