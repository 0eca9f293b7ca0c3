import Verif.Model.Archive
/-
C01 Archive bounds, C02 mode discipline.
-/
namespace Feat

/-- The public calls of an archive (scalars of any type of size `n` are read by `read n`). -/
inductive ArcCall where
  | writeRaw (p : Option (List UInt8)) (cb : Nat)
  | commit
  | read (n : Nat)
  | bufferPtr
  | advance (delta : Nat)
  | atEnd
  | clone (base' : Nat)
  deriving DecidableEq, Repr

/-- What a call returns. -/
inductive ArcOut where
  | unit
  | bytes (bs : List UInt8)
  | ptr (p : Nat)
  | bool (b : Bool)
  | archive (a : Archive)
  deriving DecidableEq, Repr

/-- Perform a call. -/
def ArcCall.run : ArcCall → M Archive ArcOut
  | .writeRaw p cb => do Archive.serializeRaw p cb; pure .unit
  | .commit => do return .bytes (← Archive.commit)
  | .read n => do return .bytes (← Archive.deserializeRaw n)
  | .bufferPtr => do return .ptr (← Archive.getBufferPtr)
  | .advance d => do Archive.updateBufferPtr d; pure .unit
  | .atEnd => do return .bool (← Archive.atEnd)
  | .clone b => do return .archive (← Archive.clone b)

/-- The archive after a sequence of calls, whether or not they throw. -/
def Archive.after (a : Archive) : List ArcCall → Archive
  | [] => a
  | c :: cs => ((c.run a).2).after cs

/-- Calls meant for reading. -/
def ArcCall.readSide : ArcCall → Prop
  | .writeRaw .. | .commit => False
  | _ => True

/-- A pointer advance smaller than `limit` (no condition on the other calls). -/
def ArcCall.advancesBelow (limit : Nat) : ArcCall → Prop
  | .advance d => d < limit
  | _ => True

instance (l : Nat) (c : ArcCall) : Decidable (c.advancesBelow l) := by
  cases c <;> unfold ArcCall.advancesBelow <;> infer_instance

/-- The part of the buffer of `a` from the cursor on. -/
def Archive.unread (a : Archive) : List UInt8 := a.buf.drop (a.cur - a.base)

private def Inv (bytes : List UInt8) (space base : Nat) (a : Archive) : Prop :=
  a.buf = bytes ∧ a.base = base ∧ a.space = space ∧ a.mode = .deserializing ∧ base ≤ a.cur ∧
    a.cur ≤ base + bytes.length

private theorem step_inv {bytes limit space base} {a : Archive}
    (hs : base + bytes.length + limit ≤ space) (hl : 0 < limit)
    (hi : Inv bytes space base a) (c : ArcCall) (hc : c.advancesBelow limit) :
    Inv bytes space base (c.run a).2 ∧
    (∀ e, (c.run a).1 = .error e → e.isException ∧ (c.run a).2 = a) ∧
    (∀ n bs, c = .read n → (c.run a).1 = .ok (.bytes bs) →
      bs = a.unread.take n ∧ bs.length = n ∧ (c.run a).2.cur = a.cur + n) := by
  obtain ⟨mode, host, sp, buf, b0, cur⟩ := a
  obtain ⟨h1, h2, h3, h3', h4, h5⟩ := hi
  simp only at h1 h2 h3 h3' h4 h5
  subst h1 h2 h3 h3'
  cases c with
  | writeRaw p cb =>
    simp [ArcCall.run, M.bind_run, Archive.serializeRaw, Inv, Err.isException, h4, h5]
  | commit =>
    simp [ArcCall.run, M.bind_run, Archive.commit, Inv, Err.isException, h4, h5]
  | bufferPtr =>
    simp only [ArcCall.run, M.bind_run, Archive.getBufferPtr, Archive.endp]
    by_cases h : cur = b0 + buf.length <;>
      simp [h, Inv, Err.isException, M.pure_run] <;> omega
  | atEnd =>
    simp [ArcCall.run, M.bind_run, Archive.atEnd, Inv, Err.isException, h4, h5, M.pure_run]
  | clone b =>
    have hm : b0 ≤ cur ∧ cur + (b0 + buf.length - cur) ≤ b0 + buf.length := by omega
    simp only [ArcCall.run, M.bind_run, Archive.clone, Archive.endp, Archive.memAt]
    by_cases h : cur = b0 + buf.length
    · simp [h, Inv, Err.isException]
    · simp [h, hm, Inv, Err.isException, M.pure_run]; omega
  | advance d =>
    simp only [ArcCall.advancesBelow] at hc
    have hd : (cur + d) % sp = cur + d := Nat.mod_eq_of_lt (by omega)
    simp only [ArcCall.run, M.bind_run, Archive.updateBufferPtr, Archive.endp, hd]
    by_cases h : cur + d > b0 + buf.length
    · simp [h, Inv, Err.isException, h4, h5]
    · simp [h, Inv, Err.isException, M.pure_run]; omega
  | read n =>
    have hr : (b0 + buf.length + sp - cur) % sp = b0 + buf.length - cur := by
      have : b0 + buf.length + sp - cur = (b0 + buf.length - cur) + sp := by omega
      rw [this, Nat.add_mod_right]
      exact Nat.mod_eq_of_lt (by omega)
    simp only [ArcCall.run, M.bind_run, Archive.deserializeRaw, Archive.endp, hr, Archive.memAt]
    by_cases h : b0 + buf.length - cur < n
    · simp [h, Inv, Err.isException, h4, h5]
    · have hm : b0 ≤ cur ∧ cur + n ≤ b0 + buf.length := by omega
      simp [h, hm, Inv, M.pure_run, Archive.unread]
      omega

/-- The archive's cursor is inside its buffer. -/
def Archive.InBounds (a : Archive) : Prop := a.base ≤ a.cur ∧ a.cur ≤ a.base + a.buf.length

instance (a : Archive) : Decidable a.InBounds := by unfold Archive.InBounds; infer_instance

private theorem after_inv {bytes limit space base} (hs : base + bytes.length + limit ≤ space)
    (hl : 0 < limit) :
    ∀ (calls : List ArcCall) (a : Archive), Inv bytes space base a →
      (∀ c ∈ calls, c.advancesBelow limit) → Inv bytes space base (a.after calls)
  | [], _, hi, _ => hi
  | c :: cs, _, hi, hc =>
    after_inv hs hl cs _ (step_inv hs hl hi c (hc c (by simp))).1 (fun d hd => hc d (by simp [hd]))

/-- **C01** (partial: every pointer advance is below some `limit` such that the buffer ends at least
`limit` addresses before the end of the address space; the library itself only advances by 32-bit
amounts, so on 64-bit platforms this always holds).
After any sequence of calls on a reading archive, the cursor is inside the buffer, the bytes are
unchanged, and for the next call: it never touches memory outside the buffer (no undefined
behaviour), if it throws nothing changed, and a successful read of `n` bytes returns exactly the next
`n` unread bytes and moves the cursor by `n`.
Missing: larger advances, for which the claim is false (`C01_huge_advance_escapes`). -/
theorem C01_archive_bounds_partial (host : Endian) (limit space base : Nat) (bytes : List UInt8)
    (hs : base + bytes.length + limit ≤ space) (hl : 0 < limit) (calls : List ArcCall)
    (hc : ∀ c ∈ calls, c.advancesBelow limit) (c : ArcCall) (hsane : c.advancesBelow limit) :
    let a := (Archive.mkReader host space base bytes).after calls
    a.InBounds ∧ a.buf = bytes ∧
    (c.run a).2.InBounds ∧ (c.run a).2.buf = bytes ∧
    (∀ e, (c.run a).1 = .error e → e.isException ∧ (c.run a).2 = a) ∧
    (∀ n bs, c = .read n → (c.run a).1 = .ok (.bytes bs) →
      bs = a.unread.take n ∧ bs.length = n ∧ (c.run a).2.cur = a.cur + n) := by
  intro a
  have hi : Inv bytes space base a :=
    after_inv hs hl calls _ (by simp [Inv, Archive.mkReader]) hc
  have st := step_inv hs hl hi c hsane
  have toB : ∀ x, Inv bytes space base x → x.InBounds := by
    rintro x ⟨hb1, hb2, _, _, hb4, hb5⟩
    unfold Archive.InBounds; rw [hb1, hb2]; exact ⟨hb4, hb5⟩
  exact ⟨toB _ hi, hi.1, toB _ st.1, st.1.1, st.2⟩

/-- A mixed sequence of successful and throwing reads, advances and clones meets the hypotheses. -/
example : (∀ c ∈ [ArcCall.read 2, .advance 1, .read 4, .bufferPtr, .advance 7, .clone 64],
    c.advancesBelow (2 ^ 32)) ∧ 4096 + [1, 2, 3, 4, 5].length + 2 ^ 32 ≤ 2 ^ 64 ∧
    (((Archive.mkReader .little (2 ^ 64) 4096 [1, 2, 3, 4, 5]).after
      [.read 2, .advance 1, .read 4, .bufferPtr, .advance 7, .clone 64]).cur = 4099) := by
  decide +kernel

/-- **C01 is false without a bound on advances**: `update_buffer_ptr` does not guard the pointer
addition against wrap-around.  An advance by the largest `size_t` from the start of any buffer
*succeeds*, moves the cursor before the buffer, and the next one-byte read touches memory outside it. -/
theorem C01_huge_advance_escapes (host : Endian) (space base : Nat) (bytes : List UInt8)
    (hb : 0 < base) (hs : base + bytes.length + 1 < space) :
    let a := Archive.mkReader host space base bytes
    let r := (ArcCall.advance (space - 1)).run a
    r.1 = .ok .unit ∧ ¬ r.2.InBounds ∧ ((ArcCall.read 1).run r.2).1 = .error .ub := by
  intro a r
  have hm : (base + (space - 1)) % space = base - 1 := by
    have : base + (space - 1) = (base - 1) + space := by omega
    rw [this, Nat.add_mod_right]
    exact Nat.mod_eq_of_lt (by omega)
  have hr : r = (.ok .unit, { a with cur := base - 1 }) := by
    have hle : ¬ (base + bytes.length < base - 1) := by omega
    simp only [r, ArcCall.run, M.bind_run, Archive.updateBufferPtr, a, Archive.mkReader,
      Archive.endp, hm]
    simp [hle, M.pure_run]
  rw [hr]
  refine ⟨rfl, ?_, ?_⟩
  · simp [Archive.InBounds, a, Archive.mkReader]; omega
  · have h2 : (base + bytes.length + space - (base - 1)) % space = bytes.length + 1 := by
      have : base + bytes.length + space - (base - 1) = (bytes.length + 1) + space := by omega
      rw [this, Nat.add_mod_right]
      exact Nat.mod_eq_of_lt (by omega)
    have h3 : ¬ base ≤ base - 1 := by omega
    simp [ArcCall.run, M.bind_run, Archive.deserializeRaw, a, Archive.mkReader, Archive.endp, h2,
      Archive.memAt, h3]

example : (0:Nat) < 4096 ∧ 4096 + [1, 2].length + 1 < 2 ^ 64 := by decide

private theorem mode_step (a : Archive) (c : ArcCall) :
    (c.run a).2.mode = a.mode ∧
    (a.mode = .serializing → c.readSide → c.run a = (.error .runtimeError, a)) ∧
    (a.mode = .deserializing → ¬ c.readSide → c.run a = (.error .runtimeError, a)) := by
  have hb : ∀ {α : Type} (m : M Archive α) (f : α → ArcOut),
      (m >>= fun x => pure (f x)) a = ((m a).1.map f, (m a).2) := by
    intro α m f
    rw [M.bind_run]
    rcases m a with ⟨_ | _, _⟩ <;> rfl
  have key : ∀ {α : Type} (m : M Archive α) (f : α → ArcOut),
      ((m >>= fun x => pure (f x)) a).2 = (m a).2 := fun m f => by rw [hb]
  obtain ⟨mode, host, sp, buf, b0, cur⟩ := a
  refine ⟨?_, ?_, ?_⟩
  · cases c <;> simp only [ArcCall.run] <;> erw [key] <;>
      simp only [Archive.serializeRaw, Archive.commit, Archive.getBufferPtr,
        Archive.updateBufferPtr, Archive.atEnd, Archive.clone, Archive.deserializeRaw] <;>
      (repeat' split) <;> rfl
  · intro h hc
    simp only at h; subst h
    cases c <;> first | exact absurd hc id | skip
    all_goals
      simp only [ArcCall.run, M.bind_run, Archive.getBufferPtr,
        Archive.updateBufferPtr, Archive.atEnd, Archive.clone, Archive.deserializeRaw]
      simp
  · intro h hc
    simp only at h; subst h
    cases c <;> first | exact absurd trivial hc | skip
    all_goals
      simp only [ArcCall.run, M.bind_run, Archive.serializeRaw, Archive.commit]
      simp

private theorem mode_after : ∀ (calls : List ArcCall) (a : Archive), (a.after calls).mode = a.mode
  | [], _ => rfl
  | c :: cs, a => by
    show ((c.run a).2.after cs).mode = _
    rw [mode_after cs, (mode_step a c).1]

/-- **C02** An archive keeps its mode for life, and after any history of calls every read-side call on
a writing archive and every write-side call on a reading archive throws and changes nothing. -/
theorem C02_mode_discipline (a : Archive) (calls : List ArcCall) (c : ArcCall) :
    (a.after calls).mode = a.mode ∧
    (a.mode = .serializing → c.readSide →
      c.run (a.after calls) = (.error .runtimeError, a.after calls)) ∧
    (a.mode = .deserializing → ¬ c.readSide →
      c.run (a.after calls) = (.error .runtimeError, a.after calls)) :=
  ⟨mode_after calls a,
    fun h => (mode_step _ c).2.1 (by rw [mode_after, h]),
    fun h => (mode_step _ c).2.2 (by rw [mode_after, h])⟩

example : (Archive.mkWriter .big (2 ^ 64)).mode = .serializing ∧ (ArcCall.read 4).readSide ∧
    ¬ (ArcCall.writeRaw (some [1]) 1).readSide ∧
    ((Archive.mkWriter .big (2 ^ 64)).after [.writeRaw (some [1, 2]) 2, .read 1]).buf = [1, 2] :=
  ⟨rfl, trivial, id, by decide +kernel⟩

/-- **C53** (position) After any history of calls on a reading archive (advances bounded as in C01), `AtEnd` is
true exactly when no byte is unread; the buffer pointer is the address of the next unread byte and asking for
it throws exactly at the end; a clone is a fresh reading archive over exactly the unread bytes and is refused
exactly at the end; a read succeeds exactly when enough bytes are unread, an advance moves over that many
bytes and is refused when there are fewer. -/
theorem C53_position (host : Endian) (limit space base : Nat) (bytes : List UInt8)
    (hs : base + bytes.length + limit ≤ space) (hl : 0 < limit) (calls : List ArcCall)
    (hc : ∀ c ∈ calls, c.advancesBelow limit) :
    let a := (Archive.mkReader host space base bytes).after calls
    (ArcCall.atEnd.run a) = (.ok (.bool (decide (a.unread = []))), a) ∧
    (ArcCall.bufferPtr.run a)
      = (if a.unread = [] then .error .runtimeError
         else .ok (.ptr (base + (bytes.length - a.unread.length))), a) ∧
    (∀ base', ((ArcCall.clone base').run a)
      = (if a.unread = [] then .error .runtimeError
         else .ok (.archive (Archive.mkReader host space base' a.unread)), a)) ∧
    (∀ n, ((ArcCall.read n).run a).1
      = if n ≤ a.unread.length then .ok (.bytes (a.unread.take n)) else .error .runtimeError) ∧
    (∀ d, d < limit → if d ≤ a.unread.length
      then ((ArcCall.advance d).run a).1 = .ok .unit ∧ ((ArcCall.advance d).run a).2.unread = a.unread.drop d
      else (ArcCall.advance d).run a = (.error .invalidArgument, a)) := by
  intro a
  have hi : Inv bytes space base a := after_inv hs hl calls _ (by simp [Inv, Archive.mkReader]) hc
  have hh : a.host = host := by
    have : ∀ (calls : List ArcCall) (a : Archive), (a.after calls).host = a.host := by
      intro calls
      induction calls with
      | nil => intro a; rfl
      | cons c cs ih =>
        intro a
        show ((c.run a).2.after cs).host = _
        rw [ih]
        have hb : ∀ {α : Type} (m : M Archive α) (f : α → ArcOut),
            ((m >>= fun x => pure (f x)) a).2 = (m a).2 := by
          intro α m f
          rw [M.bind_run]
          rcases m a with ⟨_ | _, _⟩ <;> rfl
        cases c <;> simp only [ArcCall.run] <;> erw [hb] <;>
          simp only [Archive.serializeRaw, Archive.commit, Archive.getBufferPtr,
            Archive.updateBufferPtr, Archive.atEnd, Archive.clone, Archive.deserializeRaw] <;>
          (repeat' split) <;> rfl
    exact this calls _
  generalize a = a' at hi hh ⊢
  obtain ⟨mode, host', sp, buf, b0, cur⟩ := a'
  obtain ⟨h1, h2, h3, h3', h4, h5⟩ := hi
  simp only at h1 h2 h3 h3' h4 h5 hh
  subst h1 h2 h3 h3' hh
  have hul : (Archive.unread ⟨.deserializing, host', sp, buf, b0, cur⟩).length = b0 + buf.length - cur := by
    simp only [Archive.unread, List.length_drop]; omega
  have hun : (Archive.unread ⟨.deserializing, host', sp, buf, b0, cur⟩ = []) ↔ cur = b0 + buf.length := by
    rw [← List.length_eq_zero_iff, hul]; omega
  refine ⟨?_, ?_, ?_, ?_, ?_⟩
  · simp only [ArcCall.run, M.bind_run, Archive.atEnd, Archive.endp]
    by_cases h : cur = b0 + buf.length
    · rw [decide_eq_true (hun.2 h)]; simp [M.pure_run, h]
    · rw [decide_eq_false (fun hh => h (hun.1 hh))]; simp [M.pure_run, h]
  · simp only [ArcCall.run, M.bind_run, Archive.getBufferPtr, Archive.endp]
    by_cases h : cur = b0 + buf.length
    · rw [if_pos (hun.2 h)]; simp [h]
    · rw [if_neg (fun hh => h (hun.1 hh)), hul]
      have : b0 + (buf.length - (b0 + buf.length - cur)) = cur := by omega
      simp [h, M.pure_run, this]
  · intro base'
    have hm : b0 ≤ cur ∧ cur + (b0 + buf.length - cur) ≤ b0 + buf.length := by omega
    simp only [ArcCall.run, M.bind_run, Archive.clone, Archive.endp, Archive.memAt]
    by_cases h : cur = b0 + buf.length
    · rw [if_pos (hun.2 h)]; simp [h]
    · rw [if_neg (fun hh => h (hun.1 hh))]
      have ht : List.take (b0 + buf.length - cur) (List.drop (cur - b0) buf) = List.drop (cur - b0) buf := by
        apply List.take_of_length_le
        rw [List.length_drop]; omega
      simp [h, hm, M.pure_run, Archive.unread, ht]
  · intro n
    have hr : (b0 + buf.length + sp - cur) % sp = b0 + buf.length - cur := by
      have : b0 + buf.length + sp - cur = (b0 + buf.length - cur) + sp := by omega
      rw [this, Nat.add_mod_right]
      exact Nat.mod_eq_of_lt (by omega)
    rw [hul]
    simp only [ArcCall.run, M.bind_run, Archive.deserializeRaw, Archive.endp, hr, Archive.memAt]
    by_cases h : b0 + buf.length - cur < n
    · have hn : ¬ n ≤ b0 + buf.length - cur := by omega
      simp [h, hn]
    · have hm : b0 ≤ cur ∧ cur + n ≤ b0 + buf.length := by omega
      have hn : n ≤ b0 + buf.length - cur := by omega
      simp [h, hn, hm, M.pure_run, Archive.unread]
  · intro d hd
    have hd' : (cur + d) % sp = cur + d := Nat.mod_eq_of_lt (by omega)
    rw [hul]
    simp only [ArcCall.run, M.bind_run, Archive.updateBufferPtr, Archive.endp, hd']
    split
    · rename_i hle
      have : ¬ cur + d > b0 + buf.length := by omega
      have hsub : cur + d - b0 = cur - b0 + d := by omega
      simp [this, M.pure_run, Archive.unread, hsub]
    · rename_i hle
      have : cur + d > b0 + buf.length := by omega
      simp [this]

/-- The bytes written since the last commit by the calls of a history (a null pointer or a zero length writes
nothing; read-side calls neither). -/
def pendingBytes : List ArcCall → List UInt8 → List UInt8
  | [], acc => acc
  | .writeRaw (some mem) cb :: cs, acc => pendingBytes cs (acc ++ mem.take cb)
  | .commit :: cs, _ => pendingBytes cs []
  | _ :: cs, acc => pendingBytes cs acc

private theorem writer_after (calls : List ArcCall) : ∀ a : Archive, a.mode = .serializing →
    (a.after calls).buf = pendingBytes calls a.buf := by
  induction calls with
  | nil => intro a _; rfl
  | cons c cs ih =>
    intro a hm
    show ((c.run a).2.after cs).buf = _
    have hm' : (c.run a).2.mode = .serializing := by rw [(mode_step a c).1, hm]
    rw [ih _ hm']
    by_cases hr : c.readSide
    · rw [(mode_step a c).2.1 hm hr]
      cases c <;> first | exact absurd hr id | rfl
    · cases c <;> first | exact absurd trivial hr | skip
      · rename_i p cb
        cases p with
        | none =>
          simp only [ArcCall.run, M.bind_run, Archive.serializeRaw, hm, pendingBytes]
          by_cases hcb : cb = 0 <;> simp [hcb, M.pure_run]
        | some mem =>
          simp only [ArcCall.run, M.bind_run, Archive.serializeRaw, hm, pendingBytes]
          by_cases hcb : cb = 0 <;> simp [hcb, M.pure_run]
      · simp [ArcCall.run, M.bind_run, Archive.commit, hm, pendingBytes, M.pure_run]

/-- **C53** (commit) After any history of calls on a new writing archive, `commit` hands out exactly the bytes
written since the previous commit, in order, and leaves nothing pending. -/
theorem C53_commit (host : Endian) (space : Nat) (calls : List ArcCall) :
    let a := (Archive.mkWriter host space).after calls
    (ArcCall.commit.run a).1 = .ok (.bytes (pendingBytes calls [])) ∧
    (ArcCall.commit.run (ArcCall.commit.run a).2).1 = .ok (.bytes []) := by
  intro a
  have hm : a.mode = .serializing := mode_after calls _
  have hb : a.buf = pendingBytes calls [] := writer_after calls _ rfl
  have h1 : ArcCall.commit.run a = (.ok (.bytes (pendingBytes calls [])), { a with buf := [] }) := by
    simp [ArcCall.run, M.bind_run, Archive.commit, hm, hb, M.pure_run]
  rw [h1]
  refine ⟨rfl, ?_⟩
  simp [ArcCall.run, M.bind_run, Archive.commit, hm, M.pure_run]

example : pendingBytes [.writeRaw (some [1]) 1, .commit, .writeRaw (some [2, 3, 4]) 2, .read 1,
    .writeRaw none 3, .writeRaw (some [5]) 1] [] = [2, 3, 5] := rfl

end Feat
