import Verif.Spec.Codec
/-
Helper lemmas: compositional laws for `Writes`, `Reads`, `Truncs`, and the `Codec` instances.
-/
namespace Feat

/-! ### Base-256 digits -/

theorem leBytes_length (k n : Nat) : (leBytes k n).length = k := by
  induction k generalizing n with
  | zero => rfl
  | succ k ih => simp [leBytes, ih]

theorem leNat_leBytes (k n : Nat) (h : n < 256 ^ k) : leNat (leBytes k n) = n := by
  induction k generalizing n with
  | zero => simp at h; subst h; rfl
  | succ k ih =>
    have h1 : n / 256 < 256 ^ k := by
      rw [Nat.div_lt_iff_lt_mul (by decide)]; rw [Nat.pow_succ] at h; exact h
    simp only [leBytes, leNat, ih _ h1]
    have : (UInt8.ofNat (n % 256)).toNat = n % 256 := by
      rw [UInt8.toNat_ofNat']; omega
    rw [this]; omega

theorem swapBytes_eq_reverse (bs : List UInt8) : Scalar.swapBytes bs = bs.reverse := by
  apply List.ext_getElem
  · simp [Scalar.swapBytes]
  · intro i h1 h2
    simp only [List.length_reverse] at h2
    simp only [Scalar.swapBytes, List.getElem_map, List.getElem_range, List.getElem_reverse]
    rw [List.getD_eq_getElem?_getD]
    have h3 : bs.length - i - 1 < bs.length := by omega
    have h4 : bs.length - i - 1 = bs.length - 1 - i := by omega
    simp only [h4] at h3 ⊢
    rw [List.getElem?_eq_getElem h3]; rfl

/-- Canonical bytes of a scalar: little-endian digits. -/
def scalarBytes {T : Type} [Scalar T] (v : T) : List UInt8 := leBytes (Scalar.size T) (Scalar.enc v)

theorem scalarBytes_length {T : Type} [Scalar T] (v : T) :
    (scalarBytes v).length = Scalar.size T := leBytes_length _ _

/-! ### Combinators -/

section
variable {α β : Type}

theorem Writes.pure : Writes (pure ()) [] := by
  intro a _; simp [M.pure_run]

theorem Writes.bind {m₁ : M Archive Unit} {m₂ : Unit → M Archive Unit} {b₁ b₂ : List UInt8}
    (h₁ : Writes m₁ b₁) (h₂ : Writes (m₂ ()) b₂) : Writes (m₁ >>= m₂) (b₁ ++ b₂) := by
  intro a ha
  rw [M.bind_ok _ (h₁ a ha), h₂ { a with buf := a.buf ++ b₁ } ha]
  simp

theorem Reads.pure (v : α) : Reads (pure v) [] v := by
  intro h space base pre post _; simp [M.pure_run]

theorem Truncs.nil (m : M Archive α) : Truncs m [] := by
  intro h space base pre k hk; simp at hk

theorem Reads.bind {m : M Archive α} {f : α → M Archive β} {b₁ b₂ : List UInt8} {v : α} {w : β}
    (h₁ : Reads m b₁ v) (h₂ : Reads (f v) b₂ w) : Reads (m >>= f) (b₁ ++ b₂) w := by
  intro h space base pre post hr
  have e1 : pre ++ (b₁ ++ b₂) ++ post = pre ++ b₁ ++ (b₂ ++ post) := by simp
  have e2 : pre ++ (b₁ ++ b₂) ++ post = (pre ++ b₁) ++ b₂ ++ post := by simp
  have r1 := h₁ h space base pre (b₂ ++ post) (by rw [← e1]; exact hr)
  have r2 := h₂ h space base (pre ++ b₁) post (by rw [← e2]; exact hr)
  rw [← e1] at r1; rw [← e2] at r2
  rw [M.bind_ok _ r1, r2]
  simp

theorem Truncs.bind {m : M Archive α} {f : α → M Archive β} {b₁ b₂ : List UInt8} {v : α}
    (h₁ : Reads m b₁ v) (t₁ : Truncs m b₁) (t₂ : Truncs (f v) b₂) :
    Truncs (m >>= f) (b₁ ++ b₂) := by
  intro h space base pre k hk hr
  by_cases hlt : k < b₁.length
  · have e1 : (b₁ ++ b₂).take k = b₁.take k := by
      rw [List.take_append_of_le_length (by omega)]
    have hr' : Roomy space base (pre ++ b₁).length := by
      unfold Roomy at *; simp only [List.length_append] at *; omega
    obtain ⟨e, a', he, hx⟩ := t₁ h space base pre k hlt hr'
    exact ⟨e, a', by rw [e1, M.bind_error _ he], hx⟩
  · have hk2 : k - b₁.length < b₂.length := by
      simp only [List.length_append] at hk; omega
    have e1 : pre ++ (b₁ ++ b₂).take k = pre ++ b₁ ++ b₂.take (k - b₁.length) := by
      rw [List.take_append, List.take_of_length_le (by omega)]; simp
    have hr2 : Roomy space base (pre ++ b₁ ++ b₂).length := by
      unfold Roomy at *; simp only [List.length_append] at *; omega
    obtain ⟨e, a', he, hx⟩ := t₂ h space base (pre ++ b₁) (k - b₁.length) hk2 hr2
    have hr1 : Roomy space base (pre ++ b₁ ++ b₂.take (k - b₁.length)).length := by
      unfold Roomy at *; simp only [List.length_append, List.length_take] at *; omega
    have r1 := h₁ h space base pre (b₂.take (k - b₁.length)) hr1
    exact ⟨e, a', by rw [e1, M.bind_ok _ r1, he], hx⟩

theorem Reads.map {m : M Archive α} {b : List UInt8} {v : α} (f : α → β) (h : Reads m b v) :
    Reads (m >>= fun x => Pure.pure (f x)) b (f v) := by
  have := Reads.bind (f := fun x => Pure.pure (f x)) h (Reads.pure (f v))
  simpa using this

theorem Truncs.map {m : M Archive α} {b : List UInt8} {v : α} {g : α → M Archive β}
    (h : Reads m b v) (t : Truncs m b) : Truncs (m >>= g) b := by
  have := Truncs.bind (f := g) h t (Truncs.nil (g v))
  simpa using this

end

/-! ### Scalars -/

theorem deserializeRaw_reads (n : Nat) (hn : 0 < n) (bs : List UInt8) (hb : bs.length = n) :
    Reads (Archive.deserializeRaw n) bs bs := by
  intro h space base pre post hr
  unfold Roomy at hr
  simp only [List.length_append] at hr
  have hrem : (base + (pre ++ bs ++ post).length + space - (base + pre.length)) % space
      = bs.length + post.length := by
    have : base + (pre ++ bs ++ post).length + space - (base + pre.length)
        = (bs.length + post.length) + space := by simp only [List.length_append]; omega
    rw [this, Nat.add_mod_right]; exact Nat.mod_eq_of_lt (by omega)
  have hmem : base ≤ base + pre.length ∧
      base + pre.length + n ≤ base + (pre ++ bs ++ post).length := by
    simp only [List.length_append]; omega
  have hlt : ¬ (bs.length + post.length < n) := by omega
  have htake : ((pre ++ bs ++ post).drop (base + pre.length - base)).take n = bs := by
    rw [Nat.add_sub_cancel_left, List.append_assoc, List.drop_left, ← hb, List.take_left]
  simp only [Archive.deserializeRaw, Archive.rd, Archive.endp, hrem, Archive.memAt]
  rw [if_neg (by simp), if_neg hlt, if_pos hmem, htake]
  simp [hb, Nat.add_assoc]

theorem deserializeRaw_truncs (n : Nat) (bs : List UInt8) (hb : bs.length = n) :
    Truncs (Archive.deserializeRaw n) bs := by
  intro h space base pre k hk hr
  unfold Roomy at hr
  simp only [List.length_append] at hr
  have hrem : (base + (pre ++ bs.take k).length + space - (base + pre.length)) % space = k := by
    have : base + (pre ++ bs.take k).length + space - (base + pre.length) = k + space := by
      simp only [List.length_append, List.length_take]; omega
    rw [this, Nat.add_mod_right]; exact Nat.mod_eq_of_lt (by omega)
  refine ⟨.runtimeError, Archive.rd h space base (pre ++ bs.take k) pre.length, ?_, trivial⟩
  simp only [Archive.deserializeRaw, Archive.rd, Archive.endp, hrem]
  rw [if_neg (by simp), if_pos (by omega)]

theorem Scalar.writes {T : Type} [Scalar T] (v : T) : Writes (Scalar.write v) (scalarBytes v) := by
  intro a ha
  have hs := Scalar.size_pos (T := T)
  have hl := leBytes_length (Scalar.size T) (Scalar.enc v)
  have key : Scalar.write v a = Archive.serializeRaw (some (scalarBytes v)) (Scalar.size T) a := by
    unfold Scalar.write
    cases a.host <;> simp [Scalar.objBytes, swapBytes_eq_reverse, scalarBytes]
  rw [key]
  unfold Archive.serializeRaw
  rw [if_neg (by simp [ha])]
  show (if Scalar.size T = 0 then _ else _) = _
  rw [if_neg (by omega), List.take_of_length_le (Nat.le_of_eq (scalarBytes_length v))]

theorem Scalar.reads {T : Type} [Scalar T] (v : T) : Reads (Scalar.read T) (scalarBytes v) v := by
  have h1 := deserializeRaw_reads (Scalar.size T) Scalar.size_pos (scalarBytes v)
    (scalarBytes_length v)
  have hd : Scalar.dec (T := T) (leNat (scalarBytes v)) = some v := by
    rw [scalarBytes, leNat_leBytes _ _ (Scalar.enc_lt v), Scalar.dec_enc]
  intro h space base pre post hr
  unfold Scalar.read
  rw [M.bind_ok _ (h1 h space base pre post hr), M.bind_run]
  cases h <;>
    simp [M.get, Archive.rd, Scalar.ofObjBytes, swapBytes_eq_reverse, hd, M.pure_run]

theorem Scalar.truncs {T : Type} [Scalar T] (v : T) : Truncs (Scalar.read T) (scalarBytes v) :=
  Truncs.map (deserializeRaw_reads _ Scalar.size_pos _ (scalarBytes_length v))
    (deserializeRaw_truncs _ _ (scalarBytes_length v))

instance {T : Type} [Scalar T] : Codec T where
  bytes := scalarBytes
  writes v _ := Scalar.writes v
  reads v _ := Scalar.reads v
  truncs v _ := Scalar.truncs v

/-- The 32-bit length prefix. -/
def lenBytes (n : Nat) : List UInt8 := scalarBytes (UInt32.ofNat n)

theorem u32_toNat {n : Nat} (h : n < 2 ^ 32) : (UInt32.ofNat n).toNat = n := by
  rw [UInt32.toNat_ofNat']; exact Nat.mod_eq_of_lt h

/-! ### Strings -/

theorem serializeRaw_writes (bs : List UInt8) (h : bs ≠ []) :
    Writes (Archive.serializeRaw (some bs) bs.length) bs := by
  intro a ha
  have : bs.length ≠ 0 := by simpa using h
  simp [Archive.serializeRaw, ha, this]

private def strTail (n : Nat) : M Archive Str := do
  let p ← Archive.getBufferPtr
  Archive.updateBufferPtr n
  let bs ← Archive.readMem p n
  pure ⟨bs⟩

private theorem strTail_reads (bs : List UInt8) (hne : bs ≠ []) :
    Reads (strTail bs.length) bs ⟨bs⟩ := by
  intro h space base pre post hr
  unfold Roomy at hr
  simp only [List.length_append] at hr
  have hpos : 0 < bs.length := List.length_pos_iff.2 hne
  have h1 : Archive.getBufferPtr (Archive.rd h space base (pre ++ bs ++ post) pre.length)
      = (.ok (base + pre.length), Archive.rd h space base (pre ++ bs ++ post) pre.length) := by
    simp only [Archive.getBufferPtr, Archive.rd, Archive.endp]
    rw [if_neg (by simp), if_neg (by simp only [List.length_append]; omega)]
  have h2 : Archive.updateBufferPtr bs.length
      (Archive.rd h space base (pre ++ bs ++ post) pre.length)
      = (.ok (), Archive.rd h space base (pre ++ bs ++ post) (pre ++ bs).length) := by
    have hm : (base + pre.length + bs.length) % space = base + pre.length + bs.length :=
      Nat.mod_eq_of_lt (by omega)
    simp only [Archive.updateBufferPtr, Archive.rd, Archive.endp, hm]
    rw [if_neg (by simp), if_neg (by simp only [List.length_append]; omega)]
    simp [Nat.add_assoc]
  have h3 : Archive.readMem (base + pre.length) bs.length
      (Archive.rd h space base (pre ++ bs ++ post) (pre ++ bs).length)
      = (.ok bs, Archive.rd h space base (pre ++ bs ++ post) (pre ++ bs).length) := by
    have hmem : base ≤ base + pre.length ∧
        base + pre.length + bs.length ≤ base + (pre ++ bs ++ post).length := by
      simp only [List.length_append]; omega
    simp only [Archive.readMem, Archive.memAt, Archive.rd, Archive.endp]
    rw [if_pos hmem, Nat.add_sub_cancel_left, List.append_assoc, List.drop_left, List.take_left]
  unfold strTail
  rw [M.bind_ok _ h1, M.bind_ok _ h2, M.bind_ok _ h3, M.pure_run]

private theorem strTail_truncs (bs : List UInt8) :
    Truncs (strTail bs.length) bs := by
  intro h space base pre k hk hr
  unfold Roomy at hr
  simp only [List.length_append] at hr
  unfold strTail
  by_cases hk0 : k = 0
  · subst hk0
    refine ⟨.runtimeError, Archive.rd h space base (pre ++ bs.take 0) pre.length, ?_, trivial⟩
    apply M.bind_error
    simp [Archive.getBufferPtr, Archive.rd, Archive.endp]
  · refine ⟨.invalidArgument, Archive.rd h space base (pre ++ bs.take k) pre.length, ?_, trivial⟩
    have h1 : Archive.getBufferPtr (Archive.rd h space base (pre ++ bs.take k) pre.length)
        = (.ok (base + pre.length), Archive.rd h space base (pre ++ bs.take k) pre.length) := by
      simp only [Archive.getBufferPtr, Archive.rd, Archive.endp]
      rw [if_neg (by simp), if_neg (by
        simp only [List.length_append, List.length_take]; omega)]
    rw [M.bind_ok _ h1]
    apply M.bind_error
    have hm : (base + pre.length + bs.length) % space = base + pre.length + bs.length :=
      Nat.mod_eq_of_lt (by omega)
    simp only [Archive.updateBufferPtr, Archive.rd, Archive.endp, hm]
    rw [if_neg (by simp), if_pos (by simp only [List.length_append, List.length_take]; omega)]

private theorem str_des :
    (Traits.deserialize : M Archive Str) = (Scalar.read UInt32 >>= fun size =>
      if size.toNat ≠ 0 then strTail size.toNat else pure ⟨[]⟩) := rfl

private theorem str_ser (s : Str) :
    (Traits.serialize s) = (Scalar.write (UInt32.ofNat s.chars.length) >>= fun _ =>
      if s.chars ≠ [] then Archive.serializeRaw (some s.chars) s.chars.length
      else pure ()) := rfl

instance : Codec Str where
  bytes s := lenBytes s.chars.length ++ s.chars
  writes s _ := by
    rw [str_ser]
    refine Writes.bind (Scalar.writes _) ?_
    by_cases h : s.chars = []
    · rw [if_neg (by simp [h]), h]; exact Writes.pure
    · rw [if_pos h]; exact serializeRaw_writes _ h
  reads s hs := by
    have hs' : s.chars.length < 2 ^ 32 := hs
    rw [str_des]
    refine Reads.bind (Scalar.reads _) ?_
    rw [u32_toNat hs']
    by_cases h : s.chars = []
    · obtain ⟨c⟩ := s; simp only at h; subst h
      exact Reads.pure _
    · rw [if_pos (by simpa using h)]; exact strTail_reads _ h
  truncs s hs := by
    have hs' : s.chars.length < 2 ^ 32 := hs
    rw [str_des]
    refine Truncs.bind (Scalar.reads _) (Scalar.truncs _) ?_
    rw [u32_toNat hs']
    by_cases h : s.chars = []
    · obtain ⟨c⟩ := s; simp only at h; subst h
      exact Truncs.nil _
    · rw [if_pos (by simpa using h)]; exact strTail_truncs _

/-! ### Sequences -/

section
variable {T : Type} [Traits T] [Fits T] [Codec T]

/-- Concatenated encodings. -/
def bytesAll : List T → List UInt8
  | [] => []
  | x :: xs => Codec.bytes x ++ bytesAll xs

theorem writeAll_writes (l : List T) (h : ∀ x ∈ l, Fits.fits x) :
    Writes (writeAll l) (bytesAll l) := by
  induction l with
  | nil => exact Writes.pure
  | cons x xs ih =>
    exact Writes.bind (Codec.writes x (h x (by simp))) (ih (fun y hy => h y (by simp [hy])))

theorem readN_reads (l : List T) (h : ∀ x ∈ l, Fits.fits x) :
    Reads (readN l.length) (bytesAll l) l := by
  induction l with
  | nil => exact Reads.pure []
  | cons x xs ih =>
    exact Reads.bind (Codec.reads x (h x (by simp)))
      (Reads.map _ (ih (fun y hy => h y (by simp [hy]))))

theorem readN_truncs (l : List T) (h : ∀ x ∈ l, Fits.fits x) :
    Truncs (readN (T := T) l.length) (bytesAll l) := by
  induction l with
  | nil => exact Truncs.nil _
  | cons x xs ih =>
    have hx := fun y hy => h y (List.mem_cons_of_mem _ hy)
    exact Truncs.bind (Codec.reads x (h x (by simp))) (Codec.truncs x (h x (by simp)))
      (Truncs.map (readN_reads xs hx) (ih hx))

theorem readInto_reads {C : Type} (put : C → T → C) (l : List T) (h : ∀ x ∈ l, Fits.fits x)
    (c : C) : Reads (readInto put l.length c) (bytesAll l) (l.foldl put c) := by
  induction l generalizing c with
  | nil => exact Reads.pure c
  | cons x xs ih =>
    exact Reads.bind (Codec.reads x (h x (by simp)))
      (ih (fun y hy => h y (by simp [hy])) _)

theorem readInto_truncs {C : Type} (put : C → T → C) (l : List T) (h : ∀ x ∈ l, Fits.fits x)
    (c : C) : Truncs (readInto put l.length c) (bytesAll l) := by
  induction l generalizing c with
  | nil => exact Truncs.nil _
  | cons x xs ih =>
    exact Truncs.bind (Codec.reads x (h x (by simp))) (Codec.truncs x (h x (by simp)))
      (ih (fun y hy => h y (by simp [hy])) _)

instance : Codec (List T) where
  bytes l := lenBytes l.length ++ bytesAll l
  writes l h := Writes.bind (Scalar.writes _) (writeAll_writes l h.2)
  reads l h := by
    refine Reads.bind (Scalar.reads _) ?_
    rw [u32_toNat h.1]; exact readN_reads l h.2
  truncs l h := by
    refine Truncs.bind (Scalar.reads _) (Scalar.truncs _) ?_
    rw [u32_toNat h.1]; exact readN_truncs l h.2

private theorem arr_reads {n : Nat} (a : Arr T n) (h : Fits.fits a) :
    Reads (Traits.deserialize : M Archive (Arr T n)) (bytesAll a.items) a := by
  obtain ⟨l, rfl⟩ := a
  have h1 := Reads.bind (f := fun l' => if h : l'.length = l.length
      then (Pure.pure (Arr.mk l' h) : M Archive (Arr T l.length)) else M.throw .ub)
    (w := ⟨l, rfl⟩) (b₂ := []) (readN_reads l h) (by simpa using Reads.pure _)
  rw [List.append_nil] at h1
  exact h1

instance {n : Nat} : Codec (Arr T n) where
  bytes a := bytesAll a.items
  writes a h := writeAll_writes a.items h
  reads a h := arr_reads a h
  truncs a h := by
    obtain ⟨l, rfl⟩ := a
    exact Truncs.map (readN_reads l h) (readN_truncs l h)

end

section
variable {A B : Type} [Traits A] [Fits A] [Codec A] [Traits B] [Fits B] [Codec B]

instance : Codec (A × B) where
  bytes p := Codec.bytes p.1 ++ Codec.bytes p.2
  writes p h := Writes.bind (Codec.writes p.1 h.1) (Codec.writes p.2 h.2)
  reads p h := Reads.bind (Codec.reads p.1 h.1) (Reads.map _ (Codec.reads p.2 h.2))
  truncs p h := Truncs.bind (Codec.reads p.1 h.1) (Codec.truncs p.1 h.1)
    (Truncs.map (Codec.reads p.2 h.2) (Codec.truncs p.2 h.2))

instance : Codec (Option A) where
  bytes
    | none => scalarBytes false
    | some v => scalarBytes true ++ Codec.bytes v
  writes o h := by
    cases o with
    | none => exact Scalar.writes _
    | some v => exact Writes.bind (Scalar.writes _) (Codec.writes v (h v rfl))
  reads o h := by
    cases o with
    | none =>
      have := Reads.bind (f := fun b : Bool => if b then
        (do let v ← Traits.deserialize; Pure.pure (some v) : M Archive (Option A))
        else Pure.pure none) (Scalar.reads false) (Reads.pure none)
      rw [List.append_nil] at this
      exact this
    | some v =>
      exact Reads.bind (Scalar.reads _) (Reads.map some (Codec.reads v (h v rfl)))
  truncs o h := by
    cases o with
    | none => exact Truncs.map (Scalar.reads false) (Scalar.truncs false)
    | some v =>
      exact Truncs.bind (Scalar.reads _) (Scalar.truncs _)
        (Truncs.map (Codec.reads v (h v rfl)) (Codec.truncs v (h v rfl)))
end

/-! ### Maps and sets -/

section
variable {K V : Type} [LinearOrder K]

theorem emplaceSorted_last (k : K) (v : V) (l : List (K × V)) (h : ∀ e ∈ l, e.1 < k) :
    emplaceSorted k v l = l ++ [(k, v)] := by
  induction l with
  | nil => rfl
  | cons e l ih =>
    obtain ⟨k', v'⟩ := e
    have h1 : k' < k := h (k', v') (by simp)
    simp only [emplaceSorted]
    rw [if_neg (not_lt_of_gt h1), if_neg (ne_of_gt h1), ih (fun e he => h e (by simp [he]))]
    rfl

theorem OMap.foldl_entries (l : List (K × V)) (m : OMap K V)
    (h : (m.entries ++ l).Pairwise (fun a b => a.1 < b.1)) :
    (l.foldl (fun (c : OMap K V) (kv : K × V) => c.emplace kv.1 kv.2) m).entries
      = m.entries ++ l := by
  induction l generalizing m with
  | nil => simp
  | cons e l ih =>
    have hlast : emplaceSorted e.1 e.2 m.entries = m.entries ++ [e] := by
      apply emplaceSorted_last
      intro x hx
      exact (List.pairwise_append.1 h).2.2 x hx e (by simp)
    have he : (m.emplace e.1 e.2).entries = m.entries ++ [e] := hlast
    rw [List.foldl_cons, ih _ (by rw [he]; simpa using h), he]
    simp

instance [Traits K] [Fits K] [Codec K] [Traits V] [Fits V] [Codec V] : Codec (OMap K V) where
  bytes m := lenBytes m.entries.length ++ bytesAll m.entries
  writes m h := Writes.bind (Scalar.writes _) (writeAll_writes m.entries h.2)
  reads m h := by
    refine Reads.bind (Scalar.reads _) ?_
    rw [u32_toNat h.1]
    have h1 := readInto_reads (fun (c : OMap K V) (kv : K × V) => c.emplace kv.1 kv.2)
      m.entries h.2 ⟨[], by simp⟩
    have h2 : m.entries.foldl (fun (c : OMap K V) (kv : K × V) => c.emplace kv.1 kv.2)
        ⟨[], by simp⟩ = m := by
      have := OMap.foldl_entries m.entries ⟨[], by simp⟩ (by simpa using m.sorted)
      obtain ⟨e, s⟩ := m
      simp only [List.nil_append] at this
      cases hf : List.foldl (fun (c : OMap K V) (kv : K × V) => c.emplace kv.1 kv.2)
        ⟨[], by simp⟩ e
      rw [hf] at this
      simp only at this
      subst this; rfl
    rwa [h2] at h1
  truncs m h := by
    refine Truncs.bind (Scalar.reads _) (Scalar.truncs _) ?_
    rw [u32_toNat h.1]
    exact readInto_truncs _ m.entries h.2 _
end

section
variable {K V : Type} [DecidableEq K]

theorem UMap.foldl_entries (l : List (K × V)) (m : UMap K V)
    (h : ((m.entries ++ l).map (·.1)).Nodup) :
    (l.foldl (fun (c : UMap K V) (kv : K × V) => c.emplace kv.1 kv.2) m).entries
      = m.entries ++ l := by
  induction l generalizing m with
  | nil => simp
  | cons e l ih =>
    have hn : e.1 ∉ m.entries.map (·.1) := by
      rw [List.map_append, List.nodup_append] at h
      intro hm
      exact h.2.2 e.1 hm e.1 (by simp) rfl
    have he : (m.emplace e.1 e.2).entries = m.entries ++ [e] := by
      simp only [UMap.emplace, dif_neg hn]
    rw [List.foldl_cons, ih _ (by rw [he]; simpa using h), he]
    simp

theorem USet.foldl_elems (l : List K) (m : USet K) (h : (m.elems ++ l).Nodup) :
    (l.foldl (fun (c : USet K) (k : K) => c.emplace k) m).elems = m.elems ++ l := by
  induction l generalizing m with
  | nil => simp
  | cons e l ih =>
    have hn : e ∉ m.elems := by
      rw [List.nodup_append] at h
      intro hm
      exact h.2.2 e hm e (by simp) rfl
    have he : (m.emplace e).elems = m.elems ++ [e] := by
      simp only [USet.emplace, dif_neg hn]
    rw [List.foldl_cons, ih _ (by rw [he]; simpa using h), he]
    simp

omit [DecidableEq K] in
theorem UMap.ext' {a b : UMap K V} (h : a.entries = b.entries) : a = b := by
  cases a; cases b; simp only at h; subst h; rfl

omit [DecidableEq K] in
theorem USet.ext' {a b : USet K} (h : a.elems = b.elems) : a = b := by
  cases a; cases b; simp only at h; subst h; rfl

theorem OMap.ext' {K V : Type} [LinearOrder K] {a b : OMap K V} (h : a.entries = b.entries) :
    a = b := by
  cases a; cases b; simp only at h; subst h; rfl

instance [Traits K] [Fits K] [Codec K] [Traits V] [Fits V] [Codec V] : Codec (UMap K V) where
  bytes m := lenBytes m.entries.length ++ bytesAll m.entries
  writes m h := Writes.bind (Scalar.writes _) (writeAll_writes m.entries h.2)
  reads m h := by
    refine Reads.bind (Scalar.reads _) ?_
    rw [u32_toNat h.1]
    have h1 := readInto_reads (fun (c : UMap K V) (kv : K × V) => c.emplace kv.1 kv.2)
      m.entries h.2 ⟨[], by simp⟩
    have h2 : m.entries.foldl (fun (c : UMap K V) (kv : K × V) => c.emplace kv.1 kv.2)
        ⟨[], by simp⟩ = m :=
      UMap.ext' (by
        have := UMap.foldl_entries m.entries ⟨[], by simp⟩ (by simpa using m.nodup)
        simpa using this)
    rwa [h2] at h1
  truncs m h := by
    refine Truncs.bind (Scalar.reads _) (Scalar.truncs _) ?_
    rw [u32_toNat h.1]
    exact readInto_truncs _ m.entries h.2 _

instance [Traits K] [Fits K] [Codec K] : Codec (USet K) where
  bytes m := lenBytes m.elems.length ++ bytesAll m.elems
  writes m h := Writes.bind (Scalar.writes _) (writeAll_writes m.elems h.2)
  reads m h := by
    refine Reads.bind (Scalar.reads _) ?_
    rw [u32_toNat h.1]
    have h1 := readInto_reads (fun (c : USet K) (k : K) => c.emplace k)
      m.elems h.2 ⟨[], by simp⟩
    have h2 : m.elems.foldl (fun (c : USet K) (k : K) => c.emplace k) ⟨[], by simp⟩ = m :=
      USet.ext' (by
        have := USet.foldl_elems m.elems ⟨[], by simp⟩ (by simpa using m.nodup)
        simpa using this)
    rwa [h2] at h1
  truncs m h := by
    refine Truncs.bind (Scalar.reads _) (Scalar.truncs _) ?_
    rw [u32_toNat h.1]
    exact readInto_truncs _ m.elems h.2 _
end

/-! ### Matrices -/

section
variable {T : Type} [Traits T] [Fits T] [Codec T]

/-- Concatenated lines. -/
def bytesLines : List (List T) → List UInt8
  | [] => []
  | l :: ls => bytesAll l ++ bytesLines ls

theorem writeLines_writes (ls : List (List T)) (h : ∀ l ∈ ls, ∀ x ∈ l, Fits.fits x) :
    Writes (writeLines ls) (bytesLines ls) := by
  induction ls with
  | nil => exact Writes.pure
  | cons l ls ih =>
    exact Writes.bind (writeAll_writes l (h l (by simp))) (ih (fun y hy => h y (by simp [hy])))

theorem readLines_reads (n : Nat) (ls : List (List T)) (hn : ∀ l ∈ ls, l.length = n)
    (h : ∀ l ∈ ls, ∀ x ∈ l, Fits.fits x) :
    Reads (readLines n ls.length) (bytesLines ls) ls := by
  induction ls with
  | nil => exact Reads.pure []
  | cons l ls ih =>
    have h1 : Reads (readN n) (bytesAll l) l := by
      have := readN_reads l (h l (by simp)); rwa [hn l (by simp)] at this
    exact Reads.bind h1 (Reads.map _ (ih (fun y hy => hn y (by simp [hy]))
      (fun y hy => h y (by simp [hy]))))

theorem readLines_truncs (n : Nat) (ls : List (List T)) (hn : ∀ l ∈ ls, l.length = n)
    (h : ∀ l ∈ ls, ∀ x ∈ l, Fits.fits x) :
    Truncs (readLines (T := T) n ls.length) (bytesLines ls) := by
  induction ls with
  | nil => exact Truncs.nil _
  | cons l ls ih =>
    have h1 : Reads (readN n) (bytesAll l) l := by
      have := readN_reads l (h l (by simp)); rwa [hn l (by simp)] at this
    have h2 : Truncs (readN (T := T) n) (bytesAll l) := by
      have := readN_truncs l (h l (by simp)); rwa [hn l (by simp)] at this
    have hn' := fun y hy => hn y (List.mem_cons_of_mem _ hy)
    have h' := fun y hy => h y (List.mem_cons_of_mem _ hy)
    exact Truncs.bind h1 h2 (Truncs.map (readLines_reads n ls hn' h') (ih hn' h'))

theorem i64_toInt {n : Nat} (h : n < 2 ^ 63) : (Int64.ofInt n).toInt = n := by
  rw [Int64.toInt_ofInt_of_le] <;> omega

/-- The tail of the matrix reader, after the two dimensions. -/
private def matTail (T : Type) [Traits T] (cm : Bool) (inner outer : Nat) : M Archive (Mat T cm) := do
  let ls ← readLines inner outer
  if h : ∀ l ∈ ls, l.length = inner then pure ⟨inner, ls, h⟩ else M.throw .ub

private theorem matTail_reads {cm : Bool} (m : Mat T cm)
    (h : ∀ l ∈ m.outer, ∀ x ∈ l, Fits.fits x) :
    Reads (matTail T cm m.inner m.outer.length) (bytesLines m.outer) m := by
  have h1 := Reads.bind (f := fun ls => if h : ∀ l ∈ ls, l.length = m.inner
      then (Pure.pure (Mat.mk m.inner ls h) : M Archive (Mat T cm)) else M.throw .ub)
    (w := m) (b₂ := []) (readLines_reads m.inner m.outer m.rect h)
    (by rw [dif_pos m.rect]; exact Reads.pure _)
  rw [List.append_nil] at h1
  exact h1

private theorem matTail_truncs {cm : Bool} (m : Mat T cm)
    (h : ∀ l ∈ m.outer, ∀ x ∈ l, Fits.fits x) :
    Truncs (matTail T cm m.inner m.outer.length) (bytesLines m.outer) :=
  Truncs.map (readLines_reads m.inner m.outer m.rect h)
    (readLines_truncs m.inner m.outer m.rect h)

omit [Fits T] [Codec T] in
private theorem mat_des (cm : Bool) : (Traits.deserialize : M Archive (Mat T cm)) =
    (Scalar.read Int64 >>= fun rows => Scalar.read Int64 >>= fun cols =>
      if rows.toInt < 0 ∨ cols.toInt < 0 then M.throw .ub
      else matTail T cm (if cm then rows.toInt.toNat else cols.toInt.toNat)
        (if cm then cols.toInt.toNat else rows.toInt.toNat)) := rfl

instance {cm : Bool} : Codec (Mat T cm) where
  bytes m := scalarBytes (Int64.ofInt (if cm then m.inner else m.outer.length)) ++
    (scalarBytes (Int64.ofInt (if cm then m.outer.length else m.inner)) ++ bytesLines m.outer)
  writes m h := Writes.bind (Scalar.writes _) (Writes.bind (Scalar.writes _)
    (writeLines_writes m.outer h.2.2))
  reads m h := by
    rw [mat_des]
    refine Reads.bind (Scalar.reads _) (Reads.bind (Scalar.reads _) ?_)
    have h1 := i64_toInt h.1
    have h2 := i64_toInt h.2.1
    have h3 := matTail_reads m h.2.2
    cases cm <;> simp [h1, h2] <;> (rw [if_neg (by omega)]; exact h3)
  truncs m h := by
    rw [mat_des]
    refine Truncs.bind (Scalar.reads _) (Scalar.truncs _)
      (Truncs.bind (Scalar.reads _) (Scalar.truncs _) ?_)
    have h1 := i64_toInt h.1
    have h2 := i64_toInt h.2.1
    have h3 := matTail_truncs m h.2.2
    cases cm <;> simp [h1, h2] <;> (rw [if_neg (by omega)]; exact h3)
end

end Feat
