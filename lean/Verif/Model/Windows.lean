import Verif.Model.Transformers
import Verif.Model.Transformer
import Mathlib.Algebra.Field.Defs
import Mathlib.Order.Defs.LinearOrder
/-
The circular buffer and the featurizers that look at a sliding window of the series: lag/lead operators and
rolling windows.
-/
namespace Feat

variable {A B V F : Type}

/-! ### Circular buffer (Components/WindowFeaturizerBase.h) -/

/-- `CircularBuffer` (WindowFeaturizerBase.h 180–190): `_max_size`, `_start_offset`, `_data`.  The capacity of the
vector, which `capacity()` returns, is taken to be exactly the reserved `_max_size`, as it is with libstdc++. -/
structure CBuf (A : Type) where
  max : Nat
  start : Nat
  data : List A
  deriving DecidableEq, Repr

/-- The constructor (WindowFeaturizerBase.h 302–308). -/
def CBuf.new (max : Nat) : Except Err (CBuf A) :=
  if max = 0 then .error .invalidArgument else .ok ⟨max, 0, []⟩

/-- `clear` (WindowFeaturizerBase.h 311–320). -/
def CBuf.clear (b : CBuf A) : CBuf A := { b with start := 0, data := [] }

/-- `is_full` (WindowFeaturizerBase.h 333–335). -/
def CBuf.isFull (b : CBuf A) : Bool := b.data.length = b.max

/-- `push` (WindowFeaturizerBase.h 368–378). -/
def CBuf.push (b : CBuf A) (x : A) : CBuf A :=
  if b.data.length = b.max then
    { b with data := b.data.set b.start x, start := (b.start + 1) % b.max }
  else { b with data := b.data ++ [x] }

/-- `push` of each item of a sequence. -/
def CBuf.pushAll (b : CBuf A) (xs : List A) : CBuf A := xs.foldl CBuf.push b

/-- `CircularIterator` (WindowFeaturizerBase.h 81–96).  `null`: `_itr` is the null pointer; otherwise it points to the
data of the buffer it was obtained from. -/
structure CIter where
  null : Bool
  size : Nat
  index : Nat
  maxInc : Nat
  inc : Nat
  deriving DecidableEq, Repr

/-- The default constructor (WindowFeaturizerBase.h 224–227). -/
def CIter.none : CIter := ⟨true, 0, 0, 0, 0⟩

/-- The constructor (WindowFeaturizerBase.h 229–241) for a pointer that is not null. -/
def CIter.new (size maxInc index : Nat) : Except Err CIter :=
  if size = 0 then .error .invalidArgument
  else if maxInc > size then .error .invalidArgument
  else .ok ⟨false, size, index, maxInc, 0⟩

/-- `at_end` (WindowFeaturizerBase.h 291–293). -/
def CIter.atEnd (it : CIter) : Bool := it.inc = it.maxInc

/-- `operator==` (WindowFeaturizerBase.h 264–271). -/
def CIter.eq (a b : CIter) : Bool :=
  if (a.atEnd && !b.atEnd) || (!a.atEnd && b.atEnd) then false
  else a.null == b.null && a.index == b.index

/-- `operator++` (WindowFeaturizerBase.h 244–260).  A violated `assert` is counted as undefined behaviour. -/
def CIter.next (it : CIter) : Except Err CIter :=
  if it.inc + 1 > it.maxInc then .error .ub
  else .ok { it with inc := it.inc + 1, index := (it.index + 1) % it.size }

/-- `operator*` (WindowFeaturizerBase.h 279–282) of an iterator into the buffer `b`. -/
def CBuf.deref (b : CBuf A) (it : CIter) : Except Err A :=
  if it.inc = it.maxInc then .error .ub
  else match b.data[it.index]? with
    | some x => .ok x
    | none => .error .ub

/-- `begin_impl` (WindowFeaturizerBase.h 398–404). -/
def CBuf.begin (b : CBuf A) : Except Err CIter :=
  if b.data.length = 0 then .ok .none else CIter.new b.max b.data.length b.start

/-- `end_impl` (WindowFeaturizerBase.h 408–415). -/
def CBuf.endIt (b : CBuf A) : Except Err CIter :=
  if b.data.length = 0 then .ok .none
  else CIter.new b.max 0 (if b.data.length = b.max then b.start else b.data.length)

/-- Two constructor calls, in the order of a braced list. -/
def pairOk (x y : Except Err CIter) : Except Err (CIter × CIter) :=
  match x with
  | .error e => .error e
  | .ok a => match y with
    | .error e => .error e
    | .ok b => .ok (a, b)

/-- `range_impl` (WindowFeaturizerBase.h 419–438).  A violated `assert` is counted as undefined behaviour. -/
def CBuf.range (b : CBuf A) (n offset : Nat) : Except Err (CIter × CIter) :=
  if n + offset > b.max then .error .ub
  else if b.data.length = 0 then .ok (.none, .none)
  else if offset > b.data.length then pairOk b.endIt b.endIt
  else if n + offset > b.data.length then
    pairOk (CIter.new b.max (b.data.length - offset) ((b.start + offset) % b.max)) b.endIt
  else pairOk (CIter.new b.max n ((b.start + offset) % b.max))
    (CIter.new b.max 0 ((b.start + n + offset) % b.max))

/-- `while(begin != end) f(*begin++)`: the items seen.  The number of steps left is bounded by the number of
increments left, because dereferencing or incrementing further violates an assertion. -/
def CBuf.walkFrom (b : CBuf A) (e : CIter) : Nat → CIter → Except Err (List A)
  | n, it =>
    if it.eq e then .ok []
    else match b.deref it with
      | .error err => .error err
      | .ok x => match it.next with
        | .error err => .error err
        | .ok it' => match n with
          | 0 => .error .ub
          | n + 1 => match CBuf.walkFrom b e n it' with
            | .error err => .error err
            | .ok l => .ok (x :: l)

/-- The whole loop over `[first, last)`. -/
def CBuf.walk (b : CBuf A) (r : CIter × CIter) : Except Err (List A) :=
  b.walkFrom r.2 (r.1.maxInc - r.1.inc) r.1

/-! ### Lag/lead operator (LagLeadOperatorFeaturizer.h) -/

/-- `LagLeadOperatorTransformer`: the constant members and the buffer (LagLeadOperatorFeaturizer.h 69–72). -/
structure LagLead (A : Type) where
  params : LagLeadParams
  buffer : CBuf A
  deriving DecidableEq, Repr

/-- `get_min_delta` (LagLeadOperatorFeaturizer.h 367–369). -/
def LagLeadParams.minDelta (p : LagLeadParams) : Int :=
  match p.offsets.map (fun o => (o.toNat : Int)) with
  | [] => 0
  | o :: os => minElem o os - p.offsetDelta.toNat

/-- `get_max_delta` (LagLeadOperatorFeaturizer.h 372–374). -/
def LagLeadParams.maxDelta (p : LagLeadParams) : Int :=
  match p.offsets.map (fun o => (o.toNat : Int)) with
  | [] => 0
  | o :: os => maxElem o os - p.offsetDelta.toNat

/-- `init_buffer` (LagLeadOperatorFeaturizer.h 350–364). -/
def LagLead.init (null : A) (t : LagLead A) : LagLead A :=
  ⟨t.params, (t.buffer.pushAll (List.replicate (t.params.horizon.toNat - 1) null)).pushAll
    (List.replicate (-t.params.minDelta).toNat null)⟩

/-- The constructor (LagLeadOperatorFeaturizer.h 214–271); `lagLead.make` models the constant members. -/
def LagLead.new (null : A) (horizon : UInt32) (deltas : List Int64) : Except Err (LagLead A) :=
  match lagLead.make (horizon, deltas) with
  | .error e => .error e
  | .ok p => match CBuf.new p.bufferSize with
    | .error e => .error e
    | .ok b => .ok (LagLead.init null ⟨p, b⟩)

/-- `ret(row, col) = *start_iter; ++start_iter;` for `n` columns (LagLeadOperatorFeaturizer.h 340–343). -/
def CBuf.readN (b : CBuf A) : Nat → CIter → Except Err (List A)
  | 0, _ => .ok []
  | n + 1, it => match b.deref it with
    | .error e => .error e
    | .ok x => match it.next with
      | .error e => .error e
      | .ok it' => match CBuf.readN b n it' with
        | .error e => .error e
        | .ok l => .ok (x :: l)

/-- The rows of the matrix (LagLeadOperatorFeaturizer.h 334–344). -/
def LagLead.rows (t : LagLead A) : List UInt32 → Except Err (List (List A))
  | [] => .ok []
  | o :: os => match t.buffer.range t.params.horizon.toNat o.toNat with
    | .error e => .error e
    | .ok r => match t.buffer.readN t.params.horizon.toNat r.1 with
      | .error e => .error e
      | .ok row => match LagLead.rows t os with
        | .error e => .error e
        | .ok m => .ok (row :: m)

/-- `execute_helper` (LagLeadOperatorFeaturizer.h 324–347).  Row and column numbers are converted to `int32_t`: with
2³¹ or more rows or columns cells are addressed by negative numbers or never written (`ub`). -/
def LagLead.step (t : LagLead A) (x : A) : Run (LagLead A) (List (List A)) :=
  let t' : LagLead A := { t with buffer := t.buffer.push x }
  if !t'.buffer.isFull then ⟨[], none, t'⟩
  else if 2 ^ 31 ≤ t.params.horizon.toNat ∨ 2 ^ 31 ≤ t.params.offsets.length then ⟨[], some .ub, t'⟩
  else match LagLead.rows t' t'.params.offsets with
    | .error e => ⟨[], some e, t'⟩
    | .ok m => ⟨[m], none, t'⟩

/-- The loop of `flush_impl` (LagLeadOperatorFeaturizer.h 87–92). -/
def LagLead.pad (null : A) : Nat → LagLead A → Run (LagLead A) (List (List A))
  | 0, t => ⟨[], none, t⟩
  | n + 1, t => match t.step null with
    | ⟨o, some e, t'⟩ => ⟨o, some e, t'⟩
    | ⟨o, none, t'⟩ => match LagLead.pad null n t' with
      | ⟨o', e, t''⟩ => ⟨o ++ o', e, t''⟩

/-- `flush_impl` (LagLeadOperatorFeaturizer.h 84–98). -/
def LagLead.flush (null : A) (t : LagLead A) : Run (LagLead A) (List (List A)) :=
  match LagLead.pad null t.params.maxDelta.toNat t with
  | ⟨o, some e, t'⟩ => ⟨o, some e, t'⟩
  | ⟨o, none, t'⟩ => ⟨o, none, LagLead.init null { t' with buffer := t'.buffer.clear }⟩

/-- The transformer class; `A` is the nullable type, and inputs are converted to it (LagLeadOperatorFeaturizer.h
80–82). -/
def lagLeadXf (null : A) (conv : B → A) : Xf (LagLead A) B (List (List A)) where
  exec t x := t.step (conv x)
  flush t := t.flush null

/-! ### Calculators (Featurizers/Calculators) -/

/-- `MinCalculator` (MinCalculator.h 25–49) executed on a window; `largest` is `numeric_limits<T>::max()`. -/
def minCalc [LinearOrder V] (largest : V) (l : List V) : Except Err V :=
  .ok (l.foldl (fun m x => if x < m then x else m) largest)

/-- `MaxCalculator` (MaxCalculator.h 25–49) executed on a window; `start` is `numeric_limits<T>::min()`: the lowest value
of an integer type, but the smallest *positive* normal value of a floating point type. -/
def maxCalc [LinearOrder V] (start : V) (l : List V) : Except Err V :=
  .ok (l.foldl (fun m x => if x > m then x else m) start)

/-- How a type adds (`_sum += value`) and converts to `double`. -/
structure AddKind (V F : Type) where
  zero : V
  add : V → V → Except Err V
  toF : V → F

/-- A C++ integer type: the sum is converted back to the type of the values; signed overflow of 32 and 64 bit types is
undefined. -/
def intAdd (T : Type) [CInt T] [Field F] : AddKind T F where
  zero := CInt.ofInt 0
  add a b := CInt.arith (CInt.toInt a + CInt.toInt b)
  toF v := ((CInt.toInt v : Int) : F)

/-- Floating point in exact arithmetic. -/
def exactAdd [Field F] : AddKind F F := ⟨0, fun a b => .ok (a + b), id⟩

/-- `SumCalculator::update` for each item (SumCalculator.h 37–39; Calculators.h 188–195). -/
def sumLoop (k : AddKind V F) : List V → V → Except Err V
  | [], s => .ok s
  | x :: xs, s => match k.add s x with
    | .error e => .error e
    | .ok s' => sumLoop k xs s'

/-- `SumCalculator` with the default initial value 0 (SumCalculator.h 27–47). -/
def sumCalc (k : AddKind V F) (l : List V) : Except Err V :=
  match sumLoop k l k.zero with
  | .error e => .error e
  | .ok s => k.add k.zero s

/-- `MeanCalculator` (MeanCalculator.h 24–51). -/
def meanCalc [Field F] (k : AddKind V F) (l : List V) : Except Err F :=
  if l.length = 0 then .ok 0
  else match sumCalc k l with
    | .error e => .error e
    | .ok s => .ok (k.toF s / (l.length : F))

/-! ### Rolling windows (Base/RollingWindowTransformerBase.h) -/

/-- `RollingWindowTransformerBase` (RollingWindowTransformerBase.h 63–74). -/
structure Rolling (A : Type) where
  params : RollingParams
  buffer : CBuf A
  deriving DecidableEq, Repr

/-- The constructors (RollingWindowTransformerBase.h 140–176; SimpleRollingWindowFeaturizer.h 195–213;
AnalyticalRollingWindowFeaturizer.h 192–202); `rollingWindow.make` models the constant members. -/
def Rolling.new (calculation : UInt8) (horizon maxWindow minWindow : UInt32) : Except Err (Rolling A) :=
  match rollingWindow.make (calculation, horizon, maxWindow, minWindow) with
  | .error e => .error e
  | .ok p => match CBuf.new p.capacity.toNat with
    | .error e => .error e
    | .ok b => .ok ⟨p, b⟩

/-- One column of the result (RollingWindowTransformerBase.h 89–117).  The comparisons use 32-bit unsigned
arithmetic, the starting offset 64-bit unsigned arithmetic. -/
def Rolling.cell (agg : List A → Except Err B) (t : Rolling A) (offset : UInt32) : Except Err (Option B) :=
  let size := t.buffer.data.length
  if size < (t.params.horizon - offset + t.params.minWindow).toNat then .ok none
  else
    let range :=
      if size < (t.params.maxWindow + t.params.horizon - offset).toNat then
        (((size : Int) - (t.params.horizon - offset).toNat) % 2 ^ 64, (0 : Int))
      else
        ((t.params.maxWindow.toNat : Int), ((offset.toNat : Int) - (t.buffer.max - size)) % 2 ^ 64)
    match t.buffer.range range.1.toNat range.2.toNat with
    | .error e => .error e
    | .ok r => match t.buffer.walk r with
      | .error e => .error e
      | .ok w => match agg w with
        | .error e => .error e
        | .ok v => .ok (some v)

/-- The loop over the columns (RollingWindowTransformerBase.h 89–117). -/
def Rolling.cells (agg : List A → Except Err B) (t : Rolling A) : List UInt32 → Except Err (List (Option B))
  | [] => .ok []
  | o :: os => match t.cell agg o with
    | .error e => .error e
    | .ok c => match Rolling.cells agg t os with
      | .error e => .error e
      | .ok l => .ok (c :: l)

/-- `execute_impl` (RollingWindowTransformerBase.h 83–119); `none` cells are null. -/
def Rolling.exec (agg : List A → Except Err B) (t : Rolling A) (x : A) :
    Run (Rolling A) (List (Option B)) :=
  let t' : Rolling A := { t with buffer := t.buffer.push x }
  match t'.cells agg ((List.range t'.params.horizon.toNat).map UInt32.ofNat) with
  | .error e => ⟨[], some e, t'⟩
  | .ok row => ⟨[row], none, t'⟩

/-- The transformer class; `flush_impl` is RollingWindowTransformerBase.h 189–192. -/
def rollingXf (agg : List A → Except Err B) : Xf (Rolling A) A (List (Option B)) where
  exec t x := t.exec agg x
  flush t := ⟨[], none, { t with buffer := t.buffer.clear }⟩

end Feat
