import Verif.Proofs.FloatInf
import Verif.Props.RowFloats
import Verif.Props.TimeSeriesTraining
import Verif.Props.FloatTimeSeries
import Verif.Spec.RowTraining
/-
C99: a time series imputer trained and used through byte buffers only.
-/
namespace Feat.RowCodec
open Feat.FloatText Feat.FloatArith

/-- A row of the declared types, at an address where its buffer fits. -/
def Proper (s : Serializer) (space : Nat) (x : Call) : Prop :=
  x.row.types = s ∧ x.row.Fits ∧ Roomy space x.base (x.row.bytes ++ x.junk).length

theorem bytes_ne (x : Call) : (x.row.bytes ++ x.junk).length ≠ 0 := by
  simp [Row.bytes, leBytes_length]

theorem readRaw_eq (s : Serializer) (host : Endian) (space base : Nat) (bytes : List UInt8) (h : bytes.length ≠ 0) :
    s.readRaw host space (some (base, bytes), bytes.length) = s.readBuffer host space (some (base, bytes)) := by
  unfold Serializer.readRaw Serializer.readBuffer Archive.mkReaderPtr
  simp only [if_neg h, List.take_length]

theorem readBuffer_proper {s : Serializer} {space : Nat} {x : Call} (h : Proper s space x) (host : Endian) :
    s.readBuffer host space x.buffer = .ok x.row.text := by
  obtain ⟨rfl, h2, h3⟩ := h
  exact C66_read x.row h2 host space x.base x.junk h3

theorem readRaw_proper {s : Serializer} {space : Nat} {x : Call} (h : Proper s space x) (host : Endian) :
    s.readRaw host space x.raw = .ok x.row.text := by
  rw [Call.raw, readRaw_eq _ _ _ _ _ (bytes_ne x)]
  exact readBuffer_proper h host

theorem readAll_proper {s : Serializer} {space : Nat} (xs : List Call) (h : ∀ x ∈ xs, Proper s space x) (host : Endian) :
    s.readAll host space (xs.map Call.raw) = .ok (xs.map fun x => x.row.text) := by
  induction xs with
  | nil => rfl
  | cons x xs ih =>
    rw [List.map_cons, Serializer.readAll, readRaw_proper (h x (by simp)) host, ih fun y hy => h y (by simp [hy])]
    rfl

section
variable (X : Xf TextConfig TextRow TextRow) (host : Endian) (space : Nat)

theorem fit_proper (m : EstMemory) (x : Call) (h : Proper m.serializer space x) :
    m.fit X host space x.buffer =
      ((Est.fit (Pipeline.hooks X) (some [x.row.text]) m.estimator).1,
        { m with estimator := (Est.fit (Pipeline.hooks X) (some [x.row.text]) m.estimator).2 }) := by
  unfold EstMemory.fit
  rw [readBuffer_proper h host]

theorem fitBuffer_proper (m : EstMemory) (xs : List Call) (hne : xs ≠ []) (h : ∀ x ∈ xs, Proper m.serializer space x) :
    m.fitBuffer X host space (some (xs.map Call.raw)) =
      ((Est.fit (Pipeline.hooks X) (some (xs.map fun x => x.row.text)) m.estimator).1,
        { m with estimator := (Est.fit (Pipeline.hooks X) (some (xs.map fun x => x.row.text)) m.estimator).2 }) := by
  unfold EstMemory.fitBuffer
  have : (xs.map Call.raw).length ≠ 0 := by simpa using hne
  simp only [if_neg this, readAll_proper xs h host]

/-- **C99, calls.**  In every history of calls with rows of the declared types, on any host, at any addresses and with any
further bytes in the buffers, every call answers what the estimator answers to the texts of the rows, exceptions included, and
leaves the estimator as that call does. -/
theorem C99_calls (calls : List ByteCall) (m : EstMemory)
    (h : ∀ c ∈ calls, (∀ xs, c = .fitBuffer xs → xs ≠ []) ∧ ∀ x ∈ c.rows, Proper m.serializer space x) :
    (runBytes X host space calls m).1 = (runDirect (Pipeline.hooks X) (calls.map ByteCall.direct) m.estimator).1 ∧
      (runBytes X host space calls m).2 =
        { m with estimator := (runDirect (Pipeline.hooks X) (calls.map ByteCall.direct) m.estimator).2 } := by
  induction calls generalizing m with
  | nil => exact ⟨rfl, rfl⟩
  | cons c cs ih =>
    have step : c.run X host space m = ((c.direct.run (Pipeline.hooks X) m.estimator).1,
        { m with estimator := (c.direct.run (Pipeline.hooks X) m.estimator).2 }) := by
      obtain ⟨h1, h2⟩ := h c (by simp)
      cases c with
      | fit x =>
        have hx : Proper m.serializer space x := h2 x (by simp [ByteCall.rows])
        simp only [ByteCall.run, ByteCall.direct, EstCall.run, fit_proper X host space m x hx]
      | fitBuffer xs =>
        simp only [ByteCall.run, ByteCall.direct, EstCall.run, fitBuffer_proper X host space m xs (h1 xs rfl) h2]
      | dataCompleted => rfl
      | complete => rfl
    simp only [runBytes, List.map_cons, runDirect, step]
    obtain ⟨i1, i2⟩ := ih { m with estimator := (c.direct.run (Pipeline.hooks X) m.estimator).2 }
      fun c' hc => h c' (by simp [hc])
    exact ⟨by rw [i1], i2⟩

/-- **C99, refused buffers.**  A row that is null, empty, truncated or announced with a wrong address makes the call fail with an
exception, and the estimator is not changed; in `FitBuffer` one such row anywhere makes the whole call have no effect. -/
theorem C99_refused (m : EstMemory) :
    (∀ b e, m.serializer.readBuffer host space b = .error e → m.fit X host space b = (.error e, m)) ∧
    (∀ (good : List Call) (b : RawBuffer) (rest : List RawBuffer) e, (∀ x ∈ good, Proper m.serializer space x) →
      m.serializer.readRaw host space b = .error e →
      m.fitBuffer X host space (some (good.map Call.raw ++ b :: rest)) = (.error e, m)) ∧
    m.fitBuffer X host space none = (.error .invalidArgument, m) ∧
    m.fitBuffer X host space (some []) = (.error .invalidArgument, m) := by
  refine ⟨fun b e h => by simp [EstMemory.fit, h], fun good b rest e hg hb => ?_, rfl, rfl⟩
  have : ∀ good : List Call, (∀ x ∈ good, Proper m.serializer space x) →
      m.serializer.readAll host space (good.map Call.raw ++ b :: rest) = .error e := by
    intro good
    induction good with
    | nil => intro _; simp [Serializer.readAll, hb]
    | cons x xs ih =>
      intro h
      rw [List.map_cons, List.cons_append, Serializer.readAll, readRaw_proper (h x (by simp)) host,
        ih fun y hy => h y (by simp [hy])]
  simp [EstMemory.fitBuffer, this good hg]

/-- **C99, when training is complete.**  A call that answers that no more rows are wanted leaves an estimator that reports that
its training is complete and refuses further rows; after every other answer the training is not complete. -/
theorem C99_complete (m : EstMemory) :
    (∀ b r m', m.fit X host space b = (.ok r, m') → (m'.isTrainingComplete = true ↔ r = .complete)) ∧
    (∀ p r m', m.fitBuffer X host space p = (.ok r, m') → (m'.isTrainingComplete = true ↔ r = .complete)) ∧
    (m.isTrainingComplete = true →
      (∀ x, Proper m.serializer space x → m.fit X host space x.buffer = (.error .runtimeError, m)) ∧
      ∀ xs, xs ≠ [] → (∀ x ∈ xs, Proper m.serializer space x) →
        m.fitBuffer X host space (some (xs.map Call.raw)) = (.error .runtimeError, m)) := by
  have key : ∀ (p : Option (List TextRow)) (e e' : ImputerEst) r, Est.fit (Pipeline.hooks X) p e = (.ok r, e') →
      (e'.state ≠ .training ↔ r = .complete) := by
    intro p e e' r h
    unfold Est.fit at h
    by_cases hs : e.state = .training
    · rw [if_neg (by simp [hs])] at h
      cases p with
      | none => simp at h
      | some items =>
        simp only at h
        by_cases h0 : items.length = 0
        · rw [if_pos h0] at h; simp at h
        · rw [if_neg h0] at h
          rcases hf : (Pipeline.hooks X).fit items e.inner with ⟨_ | r', s⟩
          · rw [hf] at h; simp at h
          · rw [hf] at h
            cases r' <;> simp only [Prod.mk.injEq, Except.ok.injEq] at h <;> obtain ⟨rfl, rfl⟩ := h <;> simp [hs]
    · rw [if_pos hs] at h; simp at h
  refine ⟨?_, ?_, ?_⟩
  · intro b r m' h
    unfold EstMemory.fit at h
    rcases hb : m.serializer.readBuffer host space b with _ | x
    · rw [hb] at h; simp at h
    · rw [hb] at h
      simp only [Prod.mk.injEq] at h
      obtain ⟨h1, rfl⟩ := h
      simp only [EstMemory.isTrainingComplete, decide_eq_true_eq]
      exact key (some [x]) m.estimator _ r (Prod.ext h1 rfl)
  · intro p r m' h
    unfold EstMemory.fitBuffer at h
    cases p with
    | none => simp at h
    | some bs =>
      simp only at h
      by_cases h0 : bs.length = 0
      · rw [if_pos h0] at h; simp at h
      · rw [if_neg h0] at h
        rcases hb : m.serializer.readAll host space bs with _ | xs
        · rw [hb] at h; simp at h
        · rw [hb] at h
          simp only [Prod.mk.injEq] at h
          obtain ⟨h1, rfl⟩ := h
          simp only [EstMemory.isTrainingComplete, decide_eq_true_eq]
          exact key (some xs) m.estimator _ r (Prod.ext h1 rfl)
  · intro hc
    simp only [EstMemory.isTrainingComplete, decide_eq_true_eq] at hc
    refine ⟨fun x hx => ?_, fun xs hne hx => ?_⟩
    · rw [fit_proper X host space m x hx]
      simp [Est.fit, hc]
    · rw [fitBuffer_proper X host space m xs hne hx]
      simp [Est.fit, hc]

/-- **C99, the flag that may be left out.**  Leaving out the flag that suppresses errors is the same as giving `false`, and then
the median strategy is refused as soon as one column cannot be averaged. -/
theorem C99_flag_omitted (rowSpace : Nat) (keys datas : List UInt32) (code : UInt8) :
    createEstimator X rowSpace (some keys) (some datas) code none
      = createEstimator X rowSpace (some keys) (some datas) code (some false) ∧
    ∀ s, keys ≠ [] → datas ≠ [] → Serializer.make keys datas = .ok s → code.toNat = 3 →
      (∃ ty ∈ datas, supportsMedian ty = false) →
      createEstimator X rowSpace (some keys) (some datas) code none = .error .runtimeError := by
  refine ⟨rfl, ?_⟩
  rintro s hk hd hs hc ⟨ty, hty, hm⟩
  have hc' : strategyOf code = some .median := by unfold strategyOf; rw [hc]; rfl
  unfold createEstimator
  simp only [List.length_eq_zero_iff, hk, hd, if_false, hc', hs]
  unfold newTsImputer
  rw [if_neg (by simp [show 2 + keys.length + datas.length = (1 + keys.length + datas.length) + 1 by omega, List.replicate_succ]),
    if_pos ⟨rfl, rfl, List.any_eq_true.2 ⟨ty, hty, by simp [hm]⟩⟩]

end

/-- The buffers that are refused: null, empty, and every proper prefix of the bytes of a row. -/
theorem C99_bad_rows (r : Row) (h : r.Fits) (host : Endian) (space base k : Nat) (hk : k < r.bytes.length)
    (hroom : Roomy space base r.bytes.length) (n : Nat) (mem : List UInt8) :
    (∃ e, r.types.readRaw host space (some (base, r.bytes.take k), k) = .error e ∧ e.isException) ∧
    (∃ e, r.types.readRaw host space (none, n) = .error e ∧ e.isException) ∧
    (∃ e, r.types.readRaw host space (some (base, mem), 0) = .error e ∧ e.isException) ∧
    (∃ e, r.types.readBuffer host space (some (base, r.bytes.take k)) = .error e ∧ e.isException) ∧
    (∃ e, r.types.readBuffer host space none = .error e ∧ e.isException) := by
  refine ⟨?_, ?_, ⟨_, rfl, trivial⟩, C66_truncated r h host space base k hk hroom, ⟨_, rfl, trivial⟩⟩
  · by_cases hz : k = 0
    · subst hz
      exact ⟨_, rfl, trivial⟩
    · obtain ⟨e, he, hx⟩ := C66_truncated r h host space base k hk hroom
      have hl : (r.bytes.take k).length = k := by rw [List.length_take]; omega
      have := readRaw_eq r.types host space base (r.bytes.take k) (by omega)
      rw [hl] at this
      exact ⟨e, by rw [this, he], hx⟩
  · by_cases hn : n = 0
    · subst hn
      have hr : Roomy space 0 r.bytes.length := by
        unfold Roomy at hroom ⊢
        omega
      obtain ⟨e, a', he, hx⟩ := (row_spec r h).2 host space 0 [] 0 (by simp [Row.bytes, leBytes_length]) hr
      refine ⟨e, ?_, hx⟩
      show (r.types.readRow (Archive.mkReader host space 0 [])).1 = _
      rw [show Archive.mkReader host space 0 [] = Archive.rd host space 0 ([] ++ r.bytes.take 0) [].length from rfl, he]
    · refine ⟨.invalidArgument, ?_, trivial⟩
      simp [Serializer.readRaw, Archive.mkReaderPtr, hn]

/-! ### The training loop -/

section
variable (X : Xf TextConfig TextRow TextRow) (host : Endian) (space : Nat)

/-- The texts of the rows of a batch. -/
def texts (b : List Call) : List TextRow := b.map fun x => x.row.text

theorem trainLoop_bytes (batches : List (List Call)) (s : Serializer)
    (hb : ∀ b ∈ batches, b ≠ [] ∧ ∀ x ∈ b, Proper s space x) : ∀ (fuel : Nat) (rest : List (List Call)) (m : EstMemory),
    m.serializer = s → (∀ b ∈ rest, b ≠ [] ∧ ∀ x ∈ b, Proper s space x) →
    trainLoopBytes X host space batches fuel rest m =
      (trainLoop (Pipeline.hooks X) (batches.map texts) fuel (rest.map texts) m.estimator).map
        fun r => (r.1, { m with estimator := r.2 }) := by
  intro fuel
  induction fuel with
  | zero => intro rest m _ _; rfl
  | succ fuel ih =>
    intro rest m hm hr
    unfold trainLoopBytes trainLoop
    by_cases hs : m.estimator.state ≠ .training
    · rw [if_pos (show m.getState ≠ .training from hs), if_pos hs]
      rfl
    · rw [if_neg (show ¬ m.getState ≠ .training from hs), if_neg hs]
      cases rest with
      | nil => rfl
      | cons b bs =>
        have h0 := hr b (by simp)
        have hbs : ∀ b ∈ bs, b ≠ [] ∧ ∀ x ∈ b, Proper s space x := fun b' h' => hr b' (by simp [h'])
        simp only [List.map_cons]
        rw [fitBuffer_proper X host space m b h0.1 (by rw [hm]; exact h0.2)]
        rw [show texts b = b.map (fun x => x.row.text) from rfl]
        rcases hF : Est.fit (Pipeline.hooks X) (some (b.map fun x => x.row.text)) m.estimator with ⟨x | r, e⟩ <;> rw [hF]
        · rfl
        · cases r with
          | reset => exact ih batches { m with estimator := e } hm hb
          | complete =>
            by_cases hbe : bs = []
            · subst hbe
              simp only [List.isEmpty_nil, if_true, List.map_nil, EstMemory.onDataCompleted]
              rcases Est.onDataCompleted (Pipeline.hooks X) e with ⟨x | u, e'⟩
              · rfl
              · exact ih batches { m with estimator := e' } hm hb
            · have h1 : bs.isEmpty = false := by simpa using hbe
              have h2 : (bs.map texts).isEmpty = false := by simpa using hbe
              simp only [h1, h2]
              exact ih bs { m with estimator := e } hm hbs
          | «continue» =>
            by_cases hbe : bs = []
            · subst hbe
              simp only [List.isEmpty_nil, if_true, List.map_nil, EstMemory.onDataCompleted]
              rcases Est.onDataCompleted (Pipeline.hooks X) e with ⟨x | u, e'⟩
              · rfl
              · exact ih batches { m with estimator := e' } hm hb
            · have h1 : bs.isEmpty = false := by simpa using hbe
              have h2 : (bs.map texts).isEmpty = false := by simpa using hbe
              simp only [h1, h2]
              exact ih bs { m with estimator := e } hm hbs

/-- The transformer handle made from the transformers of the pipeline. -/
def handle (s : Serializer) : Except Err (List (Option TextConfig)) → Except Err Memory
  | .error x => .error x
  | .ok ts => match ts.filterMap id with
    | [c] => .ok ⟨s, c, .new⟩
    | _ => .error .ub

theorem trainBytes_eq (rowSpace : Nat) (keys datas : List UInt32) (code : UInt8) (strategy : TsStrategy) (suppress : Bool)
    (batches : List (List Call)) (fuel : Nat) (hk : GoodTypes keys) (hd : GoodTypes datas) (hc : strategyOf code = some strategy)
    (hne : batches ≠ []) (hb : ∀ b ∈ batches, b ≠ [] ∧ ∀ x ∈ b, Proper ⟨keys, datas⟩ space x) (e : ImputerEst)
    (he : newTsImputer parseCell cellText datas strategy suppress rowSpace
      (List.replicate (2 + keys.length + datas.length) []) = .ok e) :
    trainBytes X host space rowSpace keys datas code suppress batches fuel =
      (trainAndCreate (Pipeline.hooks X) (batches.map texts) fuel e).map fun r => handle ⟨keys, datas⟩ r.1 := by
  have hmake : Serializer.make keys datas = .ok ⟨keys, datas⟩ := by
    unfold Serializer.make
    rw [validateTypes_good hk, validateTypes_good hd]
  have hk0 : keys.length ≠ 0 := by simpa using hk.1
  have hd0 : datas.length ≠ 0 := by simpa using hd.1
  unfold trainBytes createEstimator trainAndCreate
  simp only [hk0, hd0, if_false, hc, hmake, Option.getD_some, he]
  rcases Est.beginTraining (Pipeline.hooks X) e with ⟨x | u, e1⟩
  · rfl
  · have hne' : (batches.map texts).isEmpty = false := by simpa using hne
    simp only [hne']
    rw [trainLoop_bytes X host space batches ⟨keys, datas⟩ hb fuel batches ⟨⟨keys, datas⟩, e1⟩ rfl hb]
    simp only [Bool.false_eq_true, if_false]
    rcases trainLoop (Pipeline.hooks X) (batches.map texts) fuel (batches.map texts) e1 with _ | ⟨x | u, e2⟩
    · rfl
    · rfl
    · simp only [Option.map_some, EstMemory.completeTraining]
      rcases Est.completeTraining (Pipeline.hooks X) e2 with ⟨x | u, e3⟩
      · rfl
      · simp only [Option.map_some, EstMemory.createTransformer]
        rcases Est.createTransformer (Pipeline.hooks X) e3 with ⟨x | ts, e4⟩
        · rfl
        · simp only [handle]
          rcases ts.filterMap id with _ | ⟨c, _ | ⟨_, _⟩⟩ <;> rfl

end

/-! ### Numbers in the rows -/

-- keys are compared as the maps compare them
attribute [-instance] instDecidableEqList

/-- The numbers in floating point columns are not infinite. -/
def FiniteRow (r : Row) : Prop :=
  ∀ d ∈ r.datas, (∀ x, d = .value (.f32 x) → FloatText.Finite x) ∧ (∀ x, d = .value (.f64 x) → FloatText.Finite x)

/-- The number that the text of a cell is read as. -/
def cellValue (s : Str) : F64 := FloatTimeSeries.read s.chars

theorem parse_double (x : F64) (hx : FloatText.Finite x) :
    parseCell ⟨TextTraits.toText x⟩ = .ok (cellValue ⟨TextTraits.toText x⟩) ∧ FloatText.Finite (cellValue ⟨TextTraits.toText x⟩) := by
  obtain ⟨y, h1, h2, -⟩ := bridge_double.stable hx
  unfold parseCell cellValue FloatTimeSeries.read
  simp only [h1]
  exact ⟨trivial, h2⟩

theorem float_room : tooLarge F32 + 1 < tooLarge F64 := by
  unfold tooLarge
  rw [show Binary.frac F32 = 23 from rfl, show Binary.frac F64 = 52 from rfl, show bias F32 = 127 from rfl,
    show bias F64 = 1023 from rfl]
  norm_num
  have h : (2 : ℚ) ^ 128 ≤ 2 ^ 970 := pow_le_pow_right₀ (by norm_num) (by norm_num)
  have h2 : (340282356779733661637539395458142568449 : ℚ) < 2 ^ 128 := by norm_num
  generalize (2 : ℚ) ^ 970 = p at h
  generalize (2 : ℚ) ^ 128 = q at h h2
  linarith

theorem small_micro : tooSmall F64 ≤ 1 / 1000000 := by
  have e : tooSmall F64 = (4 * 2 ^ 52 - 1) * (2 : ℚ) ^ ((1 : ℤ) - 1023 - 52 - 2) := rfl
  rw [e]
  have h : (2 : ℚ) ^ ((1 : ℤ) - 1023 - 52 - 2) ≤ (2 : ℚ) ^ (-74 : ℤ) := zpow_le_zpow_right₀ (by norm_num) (by norm_num)
  have h2 : (2 : ℚ) ^ (-74 : ℤ) = 1 / 2 ^ 74 := by rw [zpow_neg, one_div]; norm_num
  rw [h2] at h
  generalize (2 : ℚ) ^ ((1 : ℤ) - 1023 - 52 - 2) = z at *
  have h3 : (4 * 2 ^ 52 - 1) * z ≤ (4 * 2 ^ 52 - 1) * (1 / 2 ^ 74) := mul_le_mul_of_nonneg_left h (by norm_num)
  refine le_trans h3 (by norm_num)

theorem parse_float (x : F32) (hx : FloatText.Finite x) :
    parseCell ⟨TextTraits.toText x⟩ = .ok (cellValue ⟨TextTraits.toText x⟩) ∧ FloatText.Finite (cellValue ⟨TextTraits.toText x⟩) := by
  obtain ⟨k, h1, h2, -⟩ := C67_text.1 x hx
  have hn := C67_text_denotes (negative x) k
  rw [← h1] at hn
  have hq : |(if negative x then -1 else 1) * ((k : ℚ) / 1000000)| = (k : ℚ) / 1000000 := by
    rw [abs_mul, abs_of_nonneg (show (0 : ℚ) ≤ (k : ℚ) / 1000000 by positivity)]
    split <;> simp
  have hlt : |value x| < tooLarge F32 := by
    rw [← rnd_finite_iff, rnd_value hx]
    exact (finite_key x).1 hx
  have hk1 : (k : ℚ) / 1000000 < tooLarge F64 := by
    have h3 := (abs_le.1 h2).2
    have h4 := float_room
    linarith
  have := FloatTimeSeries.read_spec ⟨_, hn⟩ (by rw [hq]; exact hk1) (by
    rw [hq]
    rcases Nat.eq_zero_or_pos k with rfl | hk
    · exact .inr ⟨zero false, finite_zero _, by simp [value_zero]⟩
    · left
      have h5 : (1 : ℚ) ≤ k := by exact_mod_cast hk
      have h6 := small_micro
      linarith)
  exact ⟨this.1, this.2.1⟩

/-- The number read from the text of a `float` is close to it. -/
theorem read_float (x : F32) (hx : FloatText.Finite x) : |value (cellValue ⟨TextTraits.toText x⟩)| ≤ |value x| + 1 := by
  obtain ⟨k, h1, h2, -⟩ := C67_text.1 x hx
  have hn := C67_text_denotes (negative x) k
  rw [← h1] at hn
  obtain ⟨q, hqd⟩ : ∃ q, q = (if negative x then -1 else 1) * ((k : ℚ) / 1000000) := ⟨_, rfl⟩
  have hq : |q| = (k : ℚ) / 1000000 := by
    rw [hqd, abs_mul, abs_of_nonneg (show (0 : ℚ) ≤ (k : ℚ) / 1000000 by positivity)]
    split <;> simp
  have hqx : |q - value x| ≤ 1 / 2000000 := by
    have h4 := signed_dist (negative x) ((k : ℚ) / 1000000) |value x|
    unfold signOf at h4
    rw [hqd, FloatTimeSeries.value_sign x, h4]
    exact h2
  have hlt : |value x| < tooLarge F32 := by
    rw [← rnd_finite_iff, rnd_value hx]
    exact (finite_key x).1 hx
  have h3 := (abs_le.1 h2).2
  have h4 := float_room
  rw [← hqd] at hn
  have := FloatTimeSeries.read_spec ⟨_, hn⟩ (by rw [hq]; linarith) (by
    rw [hq]
    rcases Nat.eq_zero_or_pos k with rfl | hk
    · exact .inr ⟨zero false, finite_zero _, by rw [value_zero, hqd]; simp⟩
    · left
      have h5 : (1 : ℚ) ≤ k := by exact_mod_cast hk
      have h6 := small_micro
      linarith)
  obtain ⟨c1, c2⟩ := cast_exact (T := F64) hx
  have hl := this.2.least (FloatArith.cast x) c1
  rw [c2] at hl
  show |value (FloatTimeSeries.read (TextTraits.toText x))| ≤ _
  have h6 : |value (FloatTimeSeries.read (TextTraits.toText x))| ≤ |value (FloatTimeSeries.read (TextTraits.toText x)) - q| + |q| := by
    simpa using abs_add_le (value (FloatTimeSeries.read (TextTraits.toText x)) - q) q
  rw [abs_sub_comm] at hqx
  linarith

theorem float_largest : value (largest : F32) + 2 ^ 103 = tooLarge F32 := by
  have h1 : value (largest : F32) = 2 ^ 128 - 2 ^ 104 := by
    decide +kernel
  rw [h1]
  unfold tooLarge
  rw [show Binary.frac F32 = 23 from rfl, show bias F32 = 127 from rfl]
  norm_num

theorem float_abs {x : F32} (hx : FloatText.Finite x) : |value x| ≤ value (largest : F32) := by
  have h1 := value_le_largest hx
  have h2 := value_le_largest (x := negate x) (finite_negate.2 hx)
  rw [value_negate] at h2
  exact abs_le.2 ⟨by linarith, h1⟩

/-- Averages of numbers of the range of `float` have a text that is read as a `float`. -/
theorem mean_float (l : List F64) (hl : l ≠ []) (hfin : ∀ x ∈ l, FloatText.Finite x)
    (hb : ∀ x ∈ l, |value x| ≤ value (largest : F32) + 1) (hlen : l.length ≤ 2 ^ 25) :
    ∃ y : F32, TextTraits.fromText (TextTraits.toText (average l)) = .ok y ∧ FloatText.Finite y := by
  have hM : value (largest : F32) < 2 ^ 128 := by
    have h1 : value (largest : F32) = 2 ^ 128 - 2 ^ 104 := by decide +kernel
    rw [h1]; norm_num
  have hM0 : 0 ≤ value (largest : F32) := le_trans (abs_nonneg _) (float_abs finite_largest)
  have hMl := float_largest
  generalize value (largest : F32) = M at *
  have hsum : ∀ l : List F64, (∀ x ∈ l, |value x| ≤ M + 1) → (l.map fun x => |value x|).sum ≤ l.length * (M + 1) := by
    intro l hb
    have := List.sum_le_card_nsmul (l.map fun x => |value x|) (M + 1) (by simpa using hb)
    rw [List.length_map, nsmul_eq_mul] at this
    exact this
  have hs := hsum l hb
  have hn1 : 1 ≤ l.length := List.length_pos_of_ne_nil hl
  have hn : (1 : ℚ) ≤ l.length := by exact_mod_cast hn1
  have hn2 : (l.length : ℚ) ≤ 2 ^ 25 := by exact_mod_cast hlen
  obtain ⟨hf, he⟩ := FloatTimeSeries.C96_average l hl hfin (by
    have h1 : (l.length : ℚ) * (M + 1) ≤ 2 ^ 25 * (2 ^ 128 + 1) :=
      mul_le_mul hn2 (by linarith) (by linarith) (by norm_num)
    have h2 : (2 : ℚ) * (2 ^ 25 * (2 ^ 128 + 1)) < tooLarge F64 := by
      unfold tooLarge
      rw [show Binary.frac F64 = 52 from rfl, show bias F64 = 1023 from rfl]
      have h : (2 : ℚ) ^ (200 : ℕ) ≤ 2 ^ (970 : ℕ) := pow_le_pow_right₀ (by norm_num) (by norm_num)
      have e : (2 : ℚ) ^ (((1023 : ℕ) : ℤ) - ((52 : ℕ) : ℤ) - 1) = 2 ^ (970 : ℕ) := by rw [← zpow_natCast]; norm_num
      rw [e]
      generalize (2 : ℚ) ^ (970 : ℕ) = p at h
      have : (4 * 2 ^ 52 - 1) * (2 : ℚ) ^ 200 ≤ (4 * 2 ^ 52 - 1) * p := mul_le_mul_of_nonneg_left h (by norm_num)
      refine lt_of_lt_of_le ?_ this
      norm_num
    linarith) (hlen.trans (Nat.pow_le_pow_right (by norm_num) (by norm_num)))
  have hmag : FloatWindows.magnitude l ≤ M + 1 := by
    unfold FloatWindows.magnitude
    rw [div_le_iff₀ (by linarith)]
    linarith
  have hmean : |FloatWindows.mean l| ≤ M + 1 := by
    unfold FloatWindows.mean
    rw [abs_div, abs_of_pos (show (0 : ℚ) < l.length by linarith), div_le_iff₀ (by linarith)]
    have : |(l.map value).sum| ≤ (l.map fun x => |value x|).sum := by
      clear hs hfin hb hlen hl hn hn1 hn2 hf he hmag
      induction l with
      | nil => simp
      | cons a l ih =>
        simp only [List.map_cons, List.sum_cons]
        exact le_trans (abs_add_le _ _) (by linarith)
    linarith
  have hrel : ((l.length : ℚ) + 1) / 2 ^ (fmt F64).frac * FloatWindows.magnitude l ≤ 2 ^ 102 := by
    have e : (2 : ℚ) ^ (fmt F64).frac = 2 ^ 52 := rfl
    rw [e]
    have h0 : 0 ≤ FloatWindows.magnitude l := by
      unfold FloatWindows.magnitude
      refine div_nonneg (List.sum_nonneg ?_) (by linarith)
      intro y hy
      obtain ⟨x, -, rfl⟩ := List.mem_map.1 hy
      exact abs_nonneg _
    have h1 : ((l.length : ℚ) + 1) / 2 ^ 52 ≤ (2 ^ 25 + 1) / 2 ^ 52 := by
      apply div_le_div_of_nonneg_right _ (by norm_num)
      linarith
    have h2 : ((l.length : ℚ) + 1) / 2 ^ 52 * FloatWindows.magnitude l ≤ (2 ^ 25 + 1) / 2 ^ 52 * (2 ^ 128 + 1) :=
      mul_le_mul h1 (by linarith) h0 (by norm_num)
    refine le_trans h2 (by norm_num)
  have htiny : (1 : ℚ) / 2 ^ 1075 ≤ 1 := by
    rw [div_le_one (by positivity)]
    exact one_le_pow₀ (by norm_num)
  generalize (1 : ℚ) / 2 ^ 1075 = w at *
  have hav : |value (average l)| + 1 < tooLarge F32 := by
    have h3 : |value (average l)| ≤ |value (average l) - FloatWindows.mean l| + |FloatWindows.mean l| := by
      have := abs_add_le (value (average l) - FloatWindows.mean l) (FloatWindows.mean l)
      simpa using this
    rw [← hMl]
    have h4 : (2 : ℚ) ^ 102 + 10 < 2 ^ 103 := by norm_num
    generalize (2 : ℚ) ^ 102 = a at *
    generalize (2 : ℚ) ^ 103 = b at *
    linarith
  obtain ⟨k, h1, h2, -⟩ := C67_text.2 (average l) hf
  have hq : |(if negative (average l) then -1 else 1) * ((k : ℚ) / 1000000)| = (k : ℚ) / 1000000 := by
    rw [abs_mul, abs_of_nonneg (show (0 : ℚ) ≤ (k : ℚ) / 1000000 by positivity)]
    split <;> simp
  have hnum := C67_text_denotes (negative (average l)) k
  rw [← h1] at hnum
  obtain ⟨y, hy, hy2, -⟩ := (C67_read _ _ _ hnum).1.2 (by
    rw [hq]
    rintro (h | ⟨h, h'⟩)
    · have h3 := (abs_le.1 h2).2
      linarith
    · rcases Nat.eq_zero_or_pos k with rfl | hk
      · exact h' (zero false) (finite_zero _) (by simp [value_zero])
      · have h5 : (1 : ℚ) ≤ k := by exact_mod_cast hk
        have h6 : tooSmall F32 ≤ 1 / 1000000 := by
          have e : tooSmall F32 = (4 * 2 ^ 23 - 1) * (2 : ℚ) ^ ((1 : ℤ) - 127 - 23 - 2) := rfl
          rw [e]
          norm_num
        linarith)
  exact ⟨y, hy, hy2.1⟩

theorem cell_number (d : Datum) (c : Cell) (hd : d = .value c) (h : d.Fits) (ht : supportsMedian d.typeId = true)
    (hf : (∀ x, d = .value (.f32 x) → FloatText.Finite x) ∧ (∀ x, d = .value (.f64 x) → FloatText.Finite x)) :
    parseCell ⟨c.text⟩ = .ok (cellValue ⟨c.text⟩) ∧ FloatText.Finite (cellValue ⟨c.text⟩) := by
  subst hd
  cases c with
  | f32 x => exact parse_float x (hf.1 x rfl)
  | f64 x => exact parse_double x (hf.2 x rfl)
  | _ => simp only [Datum.typeId, Cell.typeId] at ht; exact absurd ht (by decide)

theorem readable (s : Serializer) (space : Nat) (xs : List Call) (hp : ∀ x ∈ xs, Proper s space x)
    (hf : ∀ x ∈ xs, FiniteRow x.row) (hspan : ∀ x ∈ texts xs, ∀ y ∈ texts xs, y.time - x.time < 2 ^ 63 - 1) :
    ReadableRows parseCell cellValue s.datas (texts xs) ∧
      ∀ x ∈ texts xs, ∀ (i : Nat) v, x.cells[i]? = some (some v) → Averaged s.datas i → Finite (cellValue v) := by
  have hlen : ∀ x ∈ texts xs, x.cells.length = s.datas.length := by
    intro x hx
    obtain ⟨y, hy, rfl⟩ := List.mem_map.1 hx
    obtain ⟨h1, -, -⟩ := hp y hy
    rw [← h1]
    simp [Row.text, Row.types]
  have hnum : ∀ x ∈ texts xs, ∀ (i : Nat) v, x.cells[i]? = some (some v) → Averaged s.datas i →
      parseCell v = .ok (cellValue v) ∧ Finite (cellValue v) := by
    intro x hx i v hv ⟨ty, hty, hs⟩
    obtain ⟨y, hy, rfl⟩ := List.mem_map.1 hx
    obtain ⟨h1, h2, -⟩ := hp y hy
    rw [← h1] at hty
    simp only [Row.text, Row.types, List.getElem?_map, Option.map_eq_some_iff] at hv hty
    obtain ⟨d, hd, hdt⟩ := hv
    obtain ⟨d', hd', rfl⟩ := hty
    rw [hd] at hd'
    cases hd'
    have hm := List.mem_of_getElem? hd
    cases d with
    | null id => simp [Datum.text] at hdt
    | value c =>
      simp only [Datum.text, Option.some.injEq] at hdt
      subst hdt
      exact cell_number _ c rfl (h2.datas _ hm) hs (hf y hy _ hm)
  exact ⟨⟨⟨fun x hx => (hlen x hx).le, fun x hx y hy _ => by rw [hlen x hx, hlen y hy], hspan⟩,
    fun x hx i v h1 h2 => (hnum x hx i v h1 h2).1⟩, fun x hx i v h1 h2 => (hnum x hx i v h1 h2).2⟩

theorem flatten_texts (batches : List (List Call)) : (batches.map texts).flatten = texts batches.flatten := by
  unfold texts
  rw [List.map_flatten]

/-- **C99, training.**  A client that trains only with byte buffers of rows of the declared types gets the transformer that
belongs to the rows: the frequency is the smallest distance of consecutive rows of a key, and the replacement values are the
averages of the values of each key; it gets a runtime error if the rows are not trainable. -/
theorem C99_trained (X : Xf TextConfig TextRow TextRow) (host : Endian) (space rowSpace : Nat) (keys datas : List UInt32)
    (code : UInt8) (strategy : TsStrategy) (suppress : Bool) (batches : List (List Call)) (hk : GoodTypes keys)
    (hd : GoodTypes datas) (hc : strategyOf code = some strategy)
    (hnew : strategy = .median → suppress = false → ∀ ty ∈ datas, supportsMedian ty = true)
    (hne : batches ≠ []) (hb : ∀ b ∈ batches, b ≠ [] ∧ ∀ x ∈ b, Proper ⟨keys, datas⟩ space x)
    (hf : ∀ x ∈ batches.flatten, FiniteRow x.row)
    (hspan : ∀ x ∈ texts batches.flatten, ∀ y ∈ texts batches.flatten, y.time - x.time < 2 ^ 63 - 1) :
    (Trainable cellValue datas (texts batches.flatten) →
      ∃ c, TrainedOn cellValue cellText datas (texts batches.flatten) c ∧ c.strategy = strategy ∧ c.suppress = suppress ∧
        c.space = rowSpace ∧ ∃ N, ∀ fuel, N ≤ fuel →
          trainBytes X host space rowSpace keys datas code suppress batches fuel = some (.ok ⟨⟨keys, datas⟩, c, .new⟩)) ∧
    (¬ Trainable cellValue datas (texts batches.flatten) →
      ∃ N, ∀ fuel, N ≤ fuel →
        trainBytes X host space rowSpace keys datas code suppress batches fuel = some (.error .runtimeError)) := by
  have hp : ∀ x ∈ batches.flatten, Proper ⟨keys, datas⟩ space x := by
    intro x hx
    obtain ⟨b, h1, h2⟩ := List.mem_flatten.1 hx
    exact (hb b h1).2 x h2
  have hr := (readable ⟨keys, datas⟩ space batches.flatten hp hf hspan).1
  have hann : ∀ name, name ≠ "" → getAnnotation (fun _ => true)
      (List.replicate (2 + keys.length + datas.length) [] : AnnotationMaps (TsAnnotation (List Str) F64)) 0 name = .ok none := by
    intro name hn
    unfold getAnnotation
    rw [if_neg (by rw [List.length_replicate]; omega), if_neg hn, show 2 + keys.length + datas.length = (1 + keys.length + datas.length) + 1
      by omega, List.replicate_succ]
    rfl
  have key := C63_training X parseCell cellValue cellText datas strategy suppress rowSpace
    (List.replicate (2 + keys.length + datas.length) []) (batches.map texts) (by rw [List.length_replicate]; omega) (by simpa using hne)
    (by
      intro b hbm
      obtain ⟨b', h1, rfl⟩ := List.mem_map.1 hbm
      have := (hb b' h1).1
      simpa [texts] using this)
    (hann _ (by decide)) (hann _ (by decide)) hnew (by rw [flatten_texts]; exact hr)
  rw [flatten_texts] at key
  refine ⟨fun ht => ?_, fun ht => ?_⟩
  · obtain ⟨c, h1, h2, h3, h4, e, he, N, hN⟩ := key.1 ht
    refine ⟨c, h1, h2, h3, h4, N, fun fuel hfu => ?_⟩
    obtain ⟨e', h5⟩ := hN fuel hfu
    rw [trainBytes_eq X host space rowSpace keys datas code strategy suppress batches fuel hk hd hc hne hb e he, h5]
    rfl
  · obtain ⟨e, he, N, hN⟩ := key.2 ht
    refine ⟨N, fun fuel hfu => ?_⟩
    obtain ⟨e', h5⟩ := hN fuel hfu
    rw [trainBytes_eq X host space rowSpace keys datas code strategy suppress batches fuel hk hd hc hne hb e he, h5]
    rfl

/-! ### Using the trained transformer -/

theorem add_not_nan {x y : F64} (hx : isNaN x = false) (hy : Finite y) : isNaN (add x y) = false := by
  by_cases hi : isInf x = true
  · have : add x y = x := by
      unfold add
      rw [if_neg (by rw [hx, Finite.not_nan hy]; simp), if_pos hi, if_neg (by rw [Finite.not_inf hy]; simp)]
    rw [this, hx]
  · rw [Bool.not_eq_true] at hi
    exact not_nan_rnd (key_add (finite_or hx hi) hy)

theorem average_not_nan (l : List F64) (hl : l ≠ []) (hfin : ∀ x ∈ l, Finite x) (hlen : l.length ≤ 2 ^ 53) :
    isNaN (average l) = false := by
  have hs : ∀ (l : List F64) (a : F64), isNaN a = false → (∀ x ∈ l, Finite x) → isNaN (l.foldl add a) = false := by
    intro l
    induction l with
    | nil => intro a h _; exact h
    | cons x l ih =>
      intro a h hx
      exact ih _ (add_not_nan h (hx x (by simp))) fun y hy => hx y (by simp [hy])
  have h1 := hs l (zero false) (Finite.not_nan (finite_zero _)) hfin
  obtain ⟨h2, h3⟩ := FloatWindows.ofInt_count hlen
  have h0 : value (ofInt (l.length : Int) : F64) ≠ 0 := by
    rw [h3]
    have : 0 < l.length := List.length_pos_of_ne_nil hl
    exact_mod_cast this.ne'
  rw [FloatTimeSeries.average_eq]
  by_cases hi : isInf (l.foldl add (zero false)) = true
  · unfold div
    rw [if_neg (by rw [h1, Finite.not_nan h2]; simp), if_pos hi, if_neg (by rw [Finite.not_inf h2]; simp)]
    exact FloatArith.isNaN_of_inf (isInf_make _)
  · rw [Bool.not_eq_true] at hi
    exact not_nan_rnd (key_div (finite_or h1 hi) h2 h0)

theorem gaps_dvd (n : Int) (l : List Int) (h : ∀ t ∈ l, n ∣ t) : ∀ d ∈ gaps l, n ∣ d := by
  induction l with
  | nil => simp [gaps]
  | cons a l ih =>
    cases l with
    | nil => simp [gaps]
    | cons b l =>
      intro d hd
      simp only [gaps] at hd
      rcases List.mem_cons.1 hd with rfl | hd
      · exact Int.dvd_sub (h b (by simp)) (h a (by simp))
      · exact ih (fun t ht => h t (by simp [ht])) d hd

theorem trained_matches (s : Serializer) (space : Nat) (xs : List Call) (hp : ∀ x ∈ xs, Proper s space x)
    (hf : ∀ x ∈ xs, FiniteRow x.row) (hspan : ∀ x ∈ texts xs, ∀ y ∈ texts xs, y.time - x.time < 2 ^ 63 - 1)
    (hlen : xs.length ≤ 2 ^ 53) (c : TextConfig) (ht : Trainable cellValue s.datas (texts xs))
    (h : TrainedOn cellValue cellText s.datas (texts xs) c) (hm : c.strategy = .median → (11 : UInt32) ∈ s.datas → xs.length ≤ 2 ^ 25) :
    MatchesBy Datum.Shows s c := by
  have hr := (readable s space xs hp hf hspan).2
  refine ⟨h.columns, ?_, fun hs k ms hk => ?_⟩
  · obtain ⟨k, hk⟩ := h.frequency_mem
    refine gaps_dvd _ _ (fun t htm => ?_) _ hk
    simp only [timesOfKey, timesOf, List.mem_filterMap, List.mem_map] at htm
    obtain ⟨r, ⟨x, hx, rfl⟩, hr⟩ := htm
    obtain ⟨y, hy, rfl⟩ := List.mem_map.1 hx
    split at hr
    · cases hr
      exact ⟨y.row.seconds.toInt, by simp [Row.text, Int.mul_comm]⟩
    · cases hr
  · have hkn : ∃ x ∈ texts xs, x.key = k := by
      by_contra hno
      rw [h.unknown k (by simpa using hno)] at hk
      cases hk
    obtain ⟨x, hx, rfl⟩ := hkn
    obtain ⟨l, h1, h2, h3⟩ := h.known x hx
    rw [hk] at h1
    cases h1
    have hw : x.cells.length = s.datas.length := by
      obtain ⟨y, hy, rfl⟩ := List.mem_map.1 hx
      rw [← (hp y hy).1]
      simp [Row.text, Row.types]
    refine List.forall₂_iff_get.2 ⟨by rw [h2, hw], fun i hi hi' hsup => ?_⟩
    have hav : Averaged s.datas i := ⟨s.datas[i], List.getElem?_eq_getElem hi, by simpa using hsup⟩
    have hl := (h3 i (by omega)).1 hav
    rw [List.getElem?_eq_getElem hi'] at hl
    have hl' := Option.some.inj hl
    have hv := ht.values x hx i (by omega) hav
    have hfin : ∀ v ∈ keyValues cellValue x.key i (texts xs), Finite v := by
      intro v hv
      obtain ⟨t, ht1, rfl⟩ := List.mem_map.1 hv
      obtain ⟨r, hr1, hr2⟩ := List.mem_filterMap.1 ht1
      have hr3 : r ∈ texts xs := (List.mem_filter.1 hr1).1
      rcases hj : r.cells[i]? with _ | o
      · rw [hj] at hr2; cases hr2
      · rw [hj] at hr2
        simp only [Option.join_some] at hr2
        subst hr2
        exact hr r hr3 i t hj hav
    have hcount : (keyValues cellValue x.key i (texts xs)).length ≤ 2 ^ 53 := by
      refine le_trans ?_ hlen
      unfold keyValues
      rw [List.length_map]
      refine le_trans (List.length_filterMap_le _ _) ?_
      refine le_trans (List.length_filter_le _ _) ?_
      simp [texts]
    have hnn := average_not_nan _ hv hfin hcount
    obtain ⟨y, e1, e2, e3, -⟩ := bridge_double.settle (average (keyValues cellValue x.key i (texts xs)))
    have hty : s.datas[i] = 11 ∨ s.datas[i] = 12 := by
      obtain ⟨z, hz, rfl⟩ := List.mem_map.1 hx
      obtain ⟨rfl, hz2, -⟩ := hp z hz
      have hi2 : i < z.row.datas.length := by simpa [Row.types] using hi
      have hfit := supported_of_fits (hz2.datas _ (List.getElem_mem hi2))
      have e : z.row.types.datas[i] = (z.row.datas[i]).typeId := by simp [Row.types]
      have hsup' : supportsMedian z.row.types.datas[i] = true := by simpa using hsup
      rw [← e] at hfit
      generalize z.row.types.datas[i] = id at hfit hsup'
      exact Supported.cases (P := fun id => supportsMedian id = true → id = 11 ∨ id = 12) hfit (by decide) (by decide)
        (by decide) (by decide) (by decide) (by decide) (by decide) (by decide) (by decide) (by decide) (by decide) (by decide)
        (by decide) (by decide) hsup'
    rcases hty with hty | hty
    · have hcount' : (keyValues cellValue x.key i (texts xs)).length ≤ 2 ^ 25 := by
        refine le_trans ?_ (hm hs (hty ▸ List.getElem_mem hi))
        unfold keyValues
        rw [List.length_map]
        refine le_trans (List.length_filterMap_le _ _) ?_
        refine le_trans (List.length_filter_le _ _) ?_
        simp [texts]
      have hbound : ∀ v ∈ keyValues cellValue x.key i (texts xs), |value v| ≤ value (largest : F32) + 1 := by
        intro v hv
        obtain ⟨t, ht1, rfl⟩ := List.mem_map.1 hv
        obtain ⟨r, hr1, hr2⟩ := List.mem_filterMap.1 ht1
        have hr3 : r ∈ texts xs := (List.mem_filter.1 hr1).1
        obtain ⟨z, hz, rfl⟩ := List.mem_map.1 hr3
        obtain ⟨hzs, hz2, -⟩ := hp z hz
        have hz3 := hf z hz
        have htys : s.datas[i]? = some 11 := by rw [List.getElem?_eq_getElem hi, hty]
        rw [← hzs] at htys
        simp only [Row.types, List.getElem?_map, Option.map_eq_some_iff] at htys
        obtain ⟨d, hd, hd11⟩ := htys
        simp only [Row.text, List.getElem?_map, hd, Option.map_some, Option.join_some] at hr2
        have hmem := List.mem_of_getElem? hd
        cases d with
        | null id => cases hr2
        | value cl =>
          cases cl with
          | f32 w =>
            cases hr2
            have hw := (hz3 _ hmem).1 w rfl
            have h1 := read_float w hw
            have h2 := float_abs hw
            show |value (cellValue ⟨TextTraits.toText w⟩)| ≤ _
            linarith
          | _ => exact absurd hd11 (by simp only [Datum.typeId, Cell.typeId]; decide)
      obtain ⟨y, hy1, hy2⟩ := mean_float _ hv hfin hbound hcount'
      refine ⟨.value (.f32 y), by simpa [Datum.typeId, Cell.typeId] using hty.symm, ⟨trivial, ?_, by simp⟩, .inr ⟨_, y, rfl, rfl, ?_⟩⟩
      · intro w hw
        cases hw
        rw [Bool.eq_false_iff, Ne, isNaN32_iff]
        intro hn
        exact hy2 hn.1
      · simp only [List.get_eq_getElem, hl']
        exact hy1
    · refine ⟨.value (.f64 y), by simpa [Datum.typeId, Cell.typeId] using hty.symm, ⟨trivial, by simp, ?_⟩, .inl ⟨?_, ?_⟩⟩
      · intro w hw
        cases hw
        rw [Bool.eq_false_iff, Ne, isNaN64_iff]
        intro hn
        rw [(isNaN_iff _).2 (e3 hn)] at hnn
        cases hnn
      · show TextTraits.fromText (TextTraits.toText y) = .ok y
        rw [e2, e1]
      · show some (⟨TextTraits.toText y⟩ : Str) = some _
        rw [e2]
        simp only [List.get_eq_getElem, hl']
        rfl

/-- **C99, from training to answers (partial: with the median strategy and columns of type `float` at most 2^25 training
rows; no durations, no times before 1677-09-22 in the rows given to `Transform`).**  A client that trains with the bytes of at most 2^53 trainable rows
and then calls `Transform` with the bytes of any rows of the declared types gets, for every call, the answer that belongs to
the rows: what the imputer with the trained frequency and replacement values does with the texts of the values, as bytes (of a
replacement value in a column of type `float`: the `float` that its text is read as). -/
theorem C99_end_to_end_partial (X : Xf TextConfig TextRow TextRow) (host : Endian) (space rowSpace : Nat)
    (keys datas : List UInt32) (code : UInt8) (strategy : TsStrategy) (suppress : Bool) (batches : List (List Call))
    (hk : GoodTypes keys) (hd : GoodTypes datas) (hc : strategyOf code = some strategy)
    (hnew : strategy = .median → suppress = false → ∀ ty ∈ datas, supportsMedian ty = true)
    (hfloat : strategy = .median → (11 : UInt32) ∈ datas → batches.flatten.length ≤ 2 ^ 25)
    (hne : batches ≠ []) (hb : ∀ b ∈ batches, b ≠ [] ∧ ∀ x ∈ b, Proper ⟨keys, datas⟩ space x)
    (hf : ∀ x ∈ batches.flatten, FiniteRow x.row)
    (hspan : ∀ x ∈ texts batches.flatten, ∀ y ∈ texts batches.flatten, y.time - x.time < 2 ^ 63 - 1)
    (hlen : batches.flatten.length ≤ 2 ^ 53) (ht : Trainable cellValue datas (texts batches.flatten)) :
    ∃ c m, (∃ N, ∀ fuel, N ≤ fuel →
        trainBytes X host space rowSpace keys datas code suppress batches fuel = some (.ok m)) ∧
      TrainedOn cellValue cellText datas (texts batches.flatten) c ∧ c.strategy = strategy ∧ c.suppress = suppress ∧
      c.space = rowSpace ∧
      ∀ calls : List Call, (∀ x ∈ calls, Proper ⟨keys, datas⟩ space x ∧ x.row.Readable) →
        List.Forall₂ (AnswerBy Datum.Shows ⟨keys, datas⟩) (runsOf (tsImputerXf c) .new (texts calls))
          (Memory.transformAll host space (calls.map Call.buffer) m).1 := by
  obtain ⟨c, h1, h2, h3, h4, h5⟩ := (C99_trained X host space rowSpace keys datas code strategy suppress batches hk hd hc hnew hne
    hb hf hspan).1 ht
  have hp : ∀ x ∈ batches.flatten, Proper ⟨keys, datas⟩ space x := by
    intro x hx
    obtain ⟨b, h1, h2⟩ := List.mem_flatten.1 hx
    exact (hb b h1).2 x h2
  have hm := trained_matches ⟨keys, datas⟩ space batches.flatten hp hf hspan hlen c ht h1 (fun h => hfloat (h2 ▸ h))
  refine ⟨c, ⟨⟨keys, datas⟩, c, .new⟩, h5, h1, h2, h3, h4, fun calls hcalls => ?_⟩
  exact history_floats_by shown_shows (fun _ _ h => .inl h) ⟨keys, datas⟩ c hm host space calls
    (fun x hx => ⟨(hcalls x hx).1.1, (hcalls x hx).1.2.1, (hcalls x hx).2, (hcalls x hx).1.2.2⟩)

/-! ### The hypotheses can be met -/

/-- The median strategy on a column of texts, the flag left out: refused. -/
example (X : Xf TextConfig TextRow TextRow) : createEstimator X 10 (some [1]) (some [12, 1]) 3 none = .error .runtimeError :=
  (C99_flag_omitted X 10 [1] [12, 1] 3).2 ⟨[1], [12, 1]⟩ (by decide) (by decide) rfl rfl ⟨1, by decide, by decide⟩

/-- Two rows of the key "a", five seconds apart, with the values 1.5 and 2, in two buffers. -/
private def exBatches : List (List Call) :=
  [[⟨⟨0, [.str [97]], [.value (.f64 ⟨0x3FF8000000000000⟩)]⟩, 4096, []⟩],
   [⟨⟨5, [.str [97]], [.value (.f64 ⟨0x4000000000000000⟩)]⟩, 8192, [7]⟩]]

private theorem exProper : ∀ b ∈ exBatches, b ≠ [] ∧ ∀ x ∈ b, Proper ⟨[1], [12]⟩ (2 ^ 40) x := by
  intro b hb
  simp only [exBatches, List.mem_cons, List.not_mem_nil, or_false] at hb
  rcases hb with rfl | rfl
  all_goals
    refine ⟨by simp, fun x hx => ?_⟩
    simp only [List.mem_cons, List.not_mem_nil, or_false] at hx
    subst hx
    refine ⟨rfl, ⟨by decide, ?_, ?_⟩, ?_⟩
    · intro c hc
      simp only [List.mem_cons, List.not_mem_nil, or_false] at hc
      subst hc
      simp [Cell.Fits]
    · intro d hd
      simp only [List.mem_cons, List.not_mem_nil, or_false] at hd
      subst hd
      refine ⟨trivial, by simp, ?_⟩
      intro x hx
      cases hx
      decide
    · show _ + _ + 2 ^ 32 ≤ 2 ^ 40
      decide

private theorem exKeys : ∀ x ∈ texts exBatches.flatten, x.key = [⟨[97]⟩] := by
  intro x hx
  simp only [texts, exBatches, List.flatten_cons, List.flatten_nil, List.append_nil, List.cons_append, List.nil_append,
    List.map_cons, List.map_nil, List.mem_cons, List.not_mem_nil, or_false] at hx
  rcases hx with rfl | rfl <;> rfl

private theorem exTimes (k : List Str) : timesOfKey k (texts exBatches.flatten) = if k = [⟨[97]⟩] then [0, 5000000000] else [] := by
  by_cases h : k = [⟨[97]⟩]
  · subst h
    rw [if_pos rfl]
    simp only [timesOfKey, timesOf, texts, exBatches, List.flatten_cons, List.flatten_nil, List.append_nil, List.cons_append,
      List.nil_append, List.map_cons, List.map_nil, Row.text, List.filterMap_cons, List.filterMap_nil]
    rfl
  · rw [if_neg h]
    simp only [timesOfKey, timesOf]
    rw [List.filterMap_eq_nil_iff]
    intro p hp
    obtain ⟨x, hx, rfl⟩ := List.mem_map.1 hp
    simp only [exKeys x hx]
    rw [if_neg (fun e => h e.symm)]

example : GoodTypes [1] ∧ GoodTypes [12] ∧ strategyOf 3 = some .median ∧ exBatches.flatten.length ≤ 2 ^ 25 ∧
    (∀ ty ∈ [(12 : UInt32)], supportsMedian ty = true) ∧ exBatches ≠ [] ∧
    (∀ b ∈ exBatches, b ≠ [] ∧ ∀ x ∈ b, Proper ⟨[1], [12]⟩ (2 ^ 40) x) ∧ (∀ x ∈ exBatches.flatten, FiniteRow x.row) ∧
    (∀ x ∈ texts exBatches.flatten, ∀ y ∈ texts exBatches.flatten, y.time - x.time < 2 ^ 63 - 1) ∧
    exBatches.flatten.length ≤ 2 ^ 53 ∧ Trainable cellValue [12] (texts exBatches.flatten) ∧
    (∀ x ∈ exBatches.flatten, x.row.Readable) := by
  refine ⟨⟨by decide, by decide, by decide⟩, ⟨by decide, by decide, by decide⟩, rfl, by decide, by decide, by simp [exBatches],
    exProper, ?_, ?_, by decide, ⟨by decide, ?_, ⟨[⟨[97]⟩], ?_⟩, ?_⟩, ?_⟩
  · intro x hx d hd
    simp only [exBatches, List.flatten_cons, List.flatten_nil, List.append_nil, List.cons_append, List.nil_append,
      List.mem_cons, List.not_mem_nil, or_false] at hx
    rcases hx with rfl | rfl
    all_goals
      simp only [List.mem_cons, List.not_mem_nil, or_false] at hd
      subst hd
      refine ⟨fun x h => (by cases h), fun x h => ?_⟩
      cases h
      unfold FloatText.Finite
      decide
  · intro x hx y hy
    simp only [texts, exBatches, List.flatten_cons, List.flatten_nil, List.append_nil, List.cons_append, List.nil_append,
      List.map_cons, List.map_nil, List.mem_cons, List.not_mem_nil, or_false] at hx hy
    rcases hx with rfl | rfl <;> rcases hy with rfl | rfl <;> simp only [Row.text] <;> decide
  · intro k
    rw [exTimes]
    split <;> simp
  · rw [exTimes, if_pos rfl]
    simp [gaps]
  · intro x hx i hi ha
    obtain ⟨ty, h, -⟩ := ha
    have hi0 : i = 0 := by
      by_contra h0
      rw [List.getElem?_eq_none (by simp; omega)] at h
      cases h
    subst hi0
    rw [exKeys x hx]
    have hmem : x ∈ ofKey [⟨[97]⟩] (texts exBatches.flatten) := by
      simp [ofKey, hx, exKeys x hx]
    obtain ⟨v, hv⟩ : ∃ v, x.cells[0]? = some (some v) := by
      simp only [texts, exBatches, List.flatten_cons, List.flatten_nil, List.append_nil, List.cons_append, List.nil_append,
        List.map_cons, List.map_nil, List.mem_cons, List.not_mem_nil, or_false] at hx
      rcases hx with rfl | rfl <;> exact ⟨_, rfl⟩
    have : cellValue v ∈ keyValues cellValue [⟨[97]⟩] 0 (texts exBatches.flatten) :=
      List.mem_map.2 ⟨v, List.mem_filterMap.2 ⟨x, hmem, by rw [hv]; rfl⟩, rfl⟩
    exact List.ne_nil_of_mem this
  · intro x hx
    simp only [exBatches, List.flatten_cons, List.flatten_nil, List.append_nil, List.cons_append, List.nil_append,
      List.mem_cons, List.not_mem_nil, or_false] at hx
    rcases hx with rfl | rfl
    all_goals
      refine ⟨?_, ?_⟩
      · intro c hc
        simp only [List.mem_cons, List.not_mem_nil, or_false] at hc
        subst hc
        trivial
      · intro c hc
        simp only [List.mem_cons, List.not_mem_nil, or_false] at hc
        subst hc
        trivial

/-- An estimator that wants no more rows refuses them. -/
example (X : Xf TextConfig TextRow TextRow) (e : ImputerEst) (h : e.state = .finished) :
    EstMemory.fitBuffer X .little (2 ^ 40) (some (exBatches.head!.map Call.raw)) ⟨⟨[1], [12]⟩, e⟩
      = (.error .runtimeError, ⟨⟨[1], [12]⟩, e⟩) :=
  ((C99_complete X .little (2 ^ 40) ⟨⟨[1], [12]⟩, e⟩).2.2 (by simp [EstMemory.isTrainingComplete, h])).2 _
    (exProper _ (by simp [exBatches])).1 (exProper _ (by simp [exBatches])).2

end Feat.RowCodec
