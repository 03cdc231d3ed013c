import Verif.Model.TE
import Mathlib.Data.Nat.Factorial.Basic

/-!
# Model of the ordinal (permutation) estimators

`infomeasure/estimators/utils/ordinal.py`, `estimators/entropy/ordinal.py`,
`estimators/mutual_information/ordinal.py`, `estimators/transfer_entropy/ordinal.py`.

Observations have an arbitrary linearly ordered type (`nan`, which is not ordered, is not modelled).
-/

namespace Verif

/-! ## Lehmer codes -/

/-- `numpy` unsigned integer types -/
inductive UIntT
  | u8 | u16 | u32 | u64
  deriving DecidableEq

/-- number of bits -/
def UIntT.bits : UIntT → Nat
  | .u8 => 8 | .u16 => 16 | .u32 => 32 | .u64 => 64

/-- `float64` value of a natural number: round to nearest (ties to even) 53-bit significand
(IEEE 754). -/
def f64 (n : Nat) : Nat :=
  if n < 2 ^ 53 then n
  else
    let e := Nat.log2 n - 52
    let q := n / 2 ^ e
    let r := n % 2 ^ e
    (if 2 * r < 2 ^ e then q else if 2 ^ e < 2 * r then q + 1 else q + q % 2) * 2 ^ e

/-- element-wise product `factoradic * array([factorial(...)])`: an `int64` array for the small
unsigned types (two's complement, as bit pattern), a `float64` array for `uint64`
(NumPy's promotion of `uint64` and `int64`). -/
def mulFact (dt : UIntT) (c f : Nat) : Nat :=
  match dt with
  | .u64 => f64 (f64 c * f64 f)
  | _ => (c * f) % 2 ^ 64

/-- `permutation_to_integer`, `estimators/utils/ordinal.py:21-75`: the digits are computed in `dtype`,
the products in the promoted type, and the sum in `dtype`. -/
def permutationToInteger (perm : List Nat) (dt : UIntT := .u64) : Except Exc Nat :=
  let n := perm.length
  if n > 20 then .error .valueError
  else
    let digit := fun i : Nat =>
      ((perm.drop (i + 1)).countP (fun b => decide (perm.getD i 0 > b))) % 2 ^ dt.bits
    .ok (((List.range n).map (fun i => mulFact dt (digit i) (n - 1 - i).factorial)).sum % 2 ^ dt.bits)

/-- the type chosen by `symbolize_series`, `estimators/utils/ordinal.py:137-143` -/
def symbolType (d : Nat) : UIntT :=
  if d.factorial < 255 then .u8
  else if d.factorial < 65535 then .u16
  else if d.factorial < 4294967295 then .u32
  else .u64

/-! ## Symbolisation -/

section
variable {α : Type} [LinearOrder α] [Inhabited α]

/-- what `numpy.argsort` promises about its result, whatever the algorithm: a permutation of the
positions that sorts the values -/
structure IsArgsort (w : List α) (p : List Nat) : Prop where
  perm : p.Perm (List.range w.length)
  sorted : (p.map (fun i => w.getD i default)).Pairwise (· ≤ ·)

/-- `numpy.argsort(w, kind="stable")` -/
def argsortStable (w : List α) : List Nat :=
  (List.range w.length).mergeSort (fun i j => decide (w.getD i default ≤ w.getD j default))

/-- an implementation of the default `numpy.argsort` (order of ties unspecified) -/
structure Argsort (α : Type) [LinearOrder α] [Inhabited α] where
  run : List α → List Nat
  correct : ∀ w, IsArgsort w (run w)

/-- `as_strided(series, shape=(n - (d-1)*step, d), strides=(s, s*step))`,
`estimators/utils/ordinal.py:125-128` -/
def windows (series : List α) (d step : Nat) : List (List α) :=
  (List.range (series.length - (d - 1) * step)).map
    (fun i => (List.range d).map (fun j => series.getD (i + j * step) default))

/-- the sorting function selected by `stable`, `estimators/utils/ordinal.py:130-133` -/
def sortFun (quick : Argsort α) (stable : Bool) : List α → List Nat :=
  if stable then argsortStable else quick.run

/-- `symbolize_series(..., to_int=False)`, `estimators/utils/ordinal.py:78-133`. A series without a
single window makes `as_strided` / `apply_along_axis` raise ValueError. -/
def symbolize (quick : Argsort α) (series : List α) (d step : Int) (stable : Bool) :
    Except Exc (List (List Nat)) :=
  if d < 1 then .error .valueError
  else if step < 1 then .error .valueError
  else if (series.length : Int) ≤ (d - 1) * step then .error .valueError
  else .ok ((windows series d.toNat step.toNat).map (sortFun quick stable))

/-- `symbolize_series(..., to_int=True)`, `estimators/utils/ordinal.py:78-149` -/
def symbolizeInt (quick : Argsort α) (series : List α) (d step : Int) (stable : Bool) :
    Except Exc (List Int) := do
  let pats ← symbolize quick series d step stable
  let codes ← pats.mapM (fun p => permutationToInteger p (symbolType d.toNat))
  pure (codes.map Int.ofNat)

/-! ## Ordinal entropy -/

/-- One positional argument of the ordinal entropy: 1-D array-like, array with another number of
dimensions, tuple of 1-D arrays, tuple with an array of another dimension, or not array-like. -/
inductive OInput (α : Type)
  | arr1 (xs : List α)
  | arrN
  | tup (cols : List (List α))
  | tupN
  | other

/-- `EntropyEstimator.__init__` (`estimators/base.py:282-328`) on ordinal inputs -/
def ordBaseInit {α : Type} (args : List (OInput α)) : Except Exc (List (OInput α)) :=
  match args with
  | [] => .error .valueError
  | [a] =>
    match a with
    | .other => .error .valueError
    | .tup cols =>
      if cols.all (fun d => decide (d.length = (cols.headD []).length)) then .ok [a]
      else .error .valueError
    | _ => .ok [a]
  | [a, b] =>
    match a, b with
    | .arr1 _, .arr1 _ | .arr1 _, .arrN | .arrN, .arr1 _ | .arrN, .arrN => .ok [a, b]
    | _, _ => .error .valueError
  | _ => .error .valueError

/-- parameters of the ordinal estimators -/
structure OrdParams where
  dim : PyArg
  step : PyArg := .int 1
  stable : Bool := false

/-- `issubdtype(type(v), integer) and v >= lo` -/
def PyArg.intGe (lo : Int) : PyArg → Bool
  | .int n => decide (lo ≤ n)
  | _ => false

/-- `OrdinalEntropyEstimator.__init__`, `estimators/entropy/ordinal.py:64-113`: returns the data and
the integer parameters. -/
def ordInit {α : Type} (args : List (OInput α)) (p : OrdParams) :
    Except Exc (List (OInput α) × Int × Int) := do
  let data ← ordBaseInit args
  if data.any (fun a => match a with | .arrN | .tupN => true | _ => false) then .error .typeError
  else if p.dim.intGe 0 = false then .error .valueError
  else if p.step.intGe 1 = false then .error .valueError
  else
    let need := (p.dim.val - 1) * p.step.val + 1
    let tooLarge : Except Exc Bool := match data with
      | .arr1 xs :: _ => .ok (decide (need > (xs.length : Int)))
      | .tup (c :: _) :: _ => .ok (decide (need > (c.length : Int)))
      | .tup [] :: _ => .error .indexError
      | _ => .ok false
    if ← tooLarge then .error .valueError
    else pure (data, p.dim.val, p.step.val)

/-- `collections.Counter(l)` : distinct keys in order of first occurrence with their counts -/
def pyCounter {κ : Type} [DecidableEq κ] (l : List κ) : List (κ × Nat) :=
  (l.reverse.dedup.reverse).map (fun k => (k, l.countP (fun b => decide (b = k))))

/-- what `_estimate_probabilities` returns: probabilities, distribution dictionary, patterns -/
structure OrdDist where
  probs : List ℝ
  dist : List (List Nat × ℝ)
  patterns : List (List Nat)

open Classical in
/-- `_estimate_probabilities_embedding_dim_2`, `estimators/entropy/ordinal.py:117-128` -/
noncomputable def ordDim2 (x : List α) : OrdDist :=
  let gt := List.zipWith (fun a b => decide (a < b)) (pySlice x none (some (-1))) (pySlice x (some 1) none)
  let patterns := gt.map (fun p => if p then [0, 1] else [1, 0])
  let g : ℝ := ((gt.countP (fun p => p) : ℕ) : ℝ) / ((x.length : ℝ) - 1)
  if g = 0 then { probs := [1], dist := [([1, 0], 1)], patterns := patterns }
  else if g = 1 then { probs := [1], dist := [([0, 1], 1)], patterns := patterns }
  else { probs := [g, 1 - g], dist := [([0, 1], g), ([1, 0], 1 - g)], patterns := patterns }

/-- `bool_to_num_map`, `estimators/entropy/ordinal.py:137-144`; the two missing combinations raise
KeyError -/
def boolToNum (k : Bool × Bool × Bool) : Except Exc (List Nat) :=
  match k with
  | (true, true, true) => .ok [0, 1, 2]
  | (true, false, true) => .ok [0, 2, 1]
  | (false, true, true) => .ok [1, 0, 2]
  | (true, false, false) => .ok [1, 2, 0]
  | (false, true, false) => .ok [2, 0, 1]
  | (false, false, false) => .ok [2, 1, 0]
  | _ => .error .keyError

/-- the comparison keys `zip(gt1, gt2, gt3)`, `estimators/entropy/ordinal.py:131-133` -/
def dim3Keys (x : List α) : List (Bool × Bool × Bool) :=
  let a := pySlice x none (some (-2))
  let b := pySlice x (some 1) (some (-1))
  let c := pySlice x (some 2) none
  (List.zipWith (fun u v => decide (u < v)) a b).zip
    ((List.zipWith (fun u v => decide (u < v)) b c).zip
      (List.zipWith (fun u v => decide (u < v)) a c))

open Classical in
/-- `_estimate_probabilities_embedding_dim_3`, `estimators/entropy/ordinal.py:130-154` -/
noncomputable def ordDim3 (x : List α) : Except Exc OrdDist := do
  let keys := dim3Keys x
  let count := pyCounter keys
  let probs : List ℝ := count.map (fun e => (e.2 : ℝ) / ((x.length : ℝ) - 2))
  let names ← count.mapM (fun e => boolToNum e.1)
  let patterns ← keys.mapM boolToNum
  pure { probs := probs.filter (fun p => decide (p ≠ 0)), dist := names.zip probs, patterns := patterns }

/-- the generic branch of `_estimate_probabilities`, `estimators/entropy/ordinal.py:194-204` -/
noncomputable def ordGeneric (quick : Argsort α) (x : List α) (d step : Int) (stable : Bool) :
    Except Exc OrdDist := do
  let total : ℝ := (((x.length : Int) - (d - 1) * step : Int) : ℝ)
  let patterns ← symbolize quick x d step stable
  let count := pyCounter patterns
  let probs : List ℝ := count.map (fun e => (e.2 : ℝ) / total)
  pure { probs := probs, dist := (count.map (fun e => e.1)).zip probs, patterns := patterns }

/-- `_estimate_probabilities`, `estimators/entropy/ordinal.py:187-204` -/
noncomputable def ordProbabilities (quick : Argsort α) (x : List α) (d step : Int) (stable : Bool) :
    Except Exc OrdDist :=
  if d = 2 ∧ step = 1 then .ok (ordDim2 x)
  else if d = 3 ∧ step = 1 then ordDim3 x
  else ordGeneric quick x d step stable

/-- `-np_sum(probabilities * self._log_base(probabilities))` -/
noncomputable def ordSum (b : Base) (probs : List ℝ) : Except Exc ℝ := do
  let terms ← probs.mapM (fun p => do
    let l ← logBase b p
    pure (p * l))
  pure (- terms.sum)

/-- `_simple_entropy`, `estimators/entropy/ordinal.py:206-223`: the value together with the dictionary
and the patterns kept for the local values.  For dimension 1 the patterns are bare integers
(`none`). -/
noncomputable def ordSimple (quick : Argsort α) (x : List α) (d step : Int) (stable : Bool) (b : Base) :
    Except Exc (ℝ × Option OrdDist) :=
  if d = 1 then .ok (0, none)
  else if (d - 1) * step + 1 = (x.length : Int) then
    .ok (0, some { probs := [1], dist := [(quick.run x, 1)], patterns := [quick.run x] })
  else do
    let o ← ordProbabilities quick x d step stable
    let h ← ordSum b o.probs
    pure (h, some o)

/-- `_joint_entropy`, `estimators/entropy/ordinal.py:225-241`: every marginal is symbolised
(`stable` is not passed on), the symbol columns are reduced and counted. -/
noncomputable def ordJoint (quick : Argsort α) (cols : List (List α)) (d step : Int) (b : Base) :
    Except Exc ℝ := do
  let symbols ← cols.mapM (fun c => symbolizeInt quick c d step false)
  let codes ← reduceJointSpace (.tup symbols)
  let data ← DiscreteData.fromData codes
  ordSum b data.probabilities

/-- `_cross_entropy`, `estimators/entropy/ordinal.py:255-283` -/
noncomputable def ordCross (quick : Argsort α) (x y : List α) (d step : Int) (b : Base) :
    Except Exc ℝ := do
  let sp ← symbolizeInt quick x d step false
  let sq ← symbolizeInt quick y d step false
  let dp ← DiscreteData.fromData sp
  let dq ← DiscreteData.fromData sq
  discreteCross b dp dq

/-- `entropy(*data, approach="ordinal", ...)`: constructor, dispatch (`estimators/base.py:366-388`) -/
noncomputable def ordEntropy (quick : Argsort α) (args : List (OInput α)) (p : OrdParams) (b : Base) :
    Except Exc ℝ := do
  let i ← ordInit args p
  match i.1 with
  | [.arr1 x] => (ordSimple quick x i.2.1 i.2.2 p.stable b).map (fun r => r.1)
  | [.tup cols] => ordJoint quick cols i.2.1 i.2.2 b
  | [.arr1 x, .arr1 y] => ordCross quick x y i.2.1 i.2.2 b
  | _ => .error .runtimeError

/-- `local_vals()` of the ordinal entropy, `estimators/base.py:342-364`, 130-169 and
`entropy/ordinal.py:243-253`: the global value is computed first; `tuple(pattern)` of a bare integer
(dimension 1, joint codes) is a TypeError. -/
noncomputable def ordEntropyLocal (quick : Argsort α) (args : List (OInput α)) (p : OrdParams)
    (b : Base) : Except Exc (List ℝ) := do
  let i ← ordInit args p
  match i.1 with
  | [.arr1 x] =>
    match (← ordSimple quick x i.2.1 i.2.2 p.stable b).2 with
    | none => .error .typeError
    | some o => do
      let ps ← o.patterns.mapM (dictGet o.dist)
      let l ← ps.mapM (logBase b)
      pure (l.map (fun v => - v))
  | [.tup cols] => do
    let _ ← ordJoint quick cols i.2.1 i.2.2 b
    .error .typeError
  | [_, _] => .error .unsupportedOperation
  | _ => .error .runtimeError

end

end Verif
