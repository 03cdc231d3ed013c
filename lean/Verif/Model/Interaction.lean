import Verif.Model.Base

/-!
# Model of `infomeasure/estimators/utils/discrete_interaction_information.py`

Simplification used throughout: the sparse table stores its cells in some order; every quantity
computed from it is a sum over the cells, so the order (first occurrence here, sorted coordinates
in the library) is not observable.  Counts and products of counts are `uint64` in the code; products
are modelled modulo `2^64`.
-/

namespace Verif

/-- A sparse contingency table: distinct cells and the number of samples in each
(`sparse.COO(coords, data=ones)` sums duplicates). -/
structure Coo (κ : Type) where
  coords : List κ
  vals : List Nat

/-- `COO(coords=indices, data=ones(...))`,
`discrete_interaction_information.py:89-95` (and 284-290, 404-412, 517-525). -/
def Coo.ofRows {κ : Type} [DecidableEq κ] (rows : List κ) : Coo κ where
  coords := rows.dedup
  vals := rows.dedup.map (fun r => rows.countP (fun s => decide (s = r)))

/-- the stored cells with their values -/
def Coo.cells {κ : Type} (c : Coo κ) : List (κ × Nat) := c.coords.zip c.vals

/-- `contingency_coo.sum()` -/
def Coo.total {κ : Type} (c : Coo κ) : Nat := c.vals.sum

/-- One entry of `asnumpy(contingency_coo.sum(axis=…))`: total of the cells selected by `p`. -/
def Coo.sumWhere {κ : Type} (c : Coo κ) (p : κ → Bool) : Nat :=
  (c.cells.map (fun e => if p e.1 then e.2 else 0)).sum

/-- dense marginal along the coordinate `f`, `discrete_interaction_information.py:101-110` -/
def Coo.margin {κ : Type} (c : Coo κ) (f : κ → Nat) (size : Nat) : List Nat :=
  (List.range size).map (fun j => c.sumWhere (fun r => decide (f r = j)))

/-- product in `uint64` arithmetic (`numpy.prod(..., axis=0)` of `uint64` arrays) -/
def prodU64 (l : List Nat) : Nat := l.foldl (fun a b => (a * b) % 2 ^ 64) 1

/-- `millermadow_mi_corr`, `discrete_interaction_information.py:571-618`.  All operands of the division are Python
integers, so no samples is a ZeroDivisionError. -/
noncomputable def millerMadowCorr (kI : List Nat) (kJoint n : Nat) (base : Base)
    (kCond : Option Nat) : Except Exc ℝ :=
  if n = 0 then .error .zeroDivisionError
  else scaleBase base
    (((kI.sum : ℝ) - kI.length - kJoint + 1
      - (match kCond with | some k => (k : ℝ) - 1 | none => 0)) / (2 * n))

/-- adding the correction when requested, `discrete_interaction_information.py:136-143` etc.
`miller_madow_correction` is `None` or the base. -/
noncomputable def addCorr (mm : Option Base) (corr : Base → Except Exc ℝ) (v : ℝ) : Except Exc ℝ :=
  match mm with
  | none => .ok v
  | some base => do
    let c ← corr base
    pure (v + c)

section nd
variable {α : Type} [LinearOrder α]

/-- rows of sample indices: entry `t` lists, per variable, the index of sample `t` among the sorted
distinct values of that variable (`unique(var, return_inverse=True, axis=0)`),
`discrete_interaction_information.py:88`. -/
def indexRows (data : List (List α)) : List (List Nat) :=
  (List.range (data.headD []).length).map
    (fun t => (data.map npInverse).map (fun c => c.getD t 0))

/-- `count_marginals`: for every variable the dense vector of marginal counts,
`discrete_interaction_information.py:101-110` and 295-304. -/
def miMargins (data : List (List α)) : List (List Nat) :=
  (List.range data.length).map
    (fun i => (Coo.ofRows (indexRows data)).margin (fun r => r.getD i 0)
      ((data.map (fun v => (npUnique v).length)).getD i 0))

/-- `_mutual_information_global_nd_int`, `discrete_interaction_information.py:81-143`. -/
noncomputable def miNdInt (lg : ℝ → Except Exc ℝ) (data : List (List α)) (mm : Option Base) :
    Except Exc ℝ :=
  let coo := Coo.ofRows (indexRows data)
  let shape := data.map (fun v => (npUnique v).length)
  let margins := miMargins data
  if margins.any (fun m => decide (m.length = 1)) then .ok 0
  else do
    let total := coo.total
    let terms ← coo.cells.mapM (fun e => do
      let outer := prodU64 ((margins.zip e.1).map (fun p => p.1.getD p.2 0))
      let pJoint : ℝ := (e.2 : ℝ) / (total : ℝ)
      let logPJoint ← lg (e.2 : ℝ)
      let logTotal ← lg (total : ℝ)
      let logOuter ← lg (outer : ℝ)
      pure (pJoint * (logPJoint - logTotal)
        + pJoint * (- logOuter + (margins.length : ℝ) * logTotal)))
    addCorr mm (fun base => millerMadowCorr shape coo.vals.length (data.headD []).length base none)
      terms.sum

/-- `_mutual_information_global_2d_int`, `discrete_interaction_information.py:146-194`.
`scipy.stats.contingency.crosstab(sparse=True)` and `scipy.sparse.find` give the non-zero cells of the
table of the two variables; without samples the sparse constructor raises ValueError ("cannot infer dimensions from
zero sized index arrays"). -/
noncomputable def mi2dInt (lg : ℝ → Except Exc ℝ) (xs ys : List α) (mm : Option Base) :
    Except Exc ℝ :=
  let coo := Coo.ofRows ((npInverse xs).zip (npInverse ys))
  let pi := coo.margin (fun r => r.1) (npUnique xs).length
  let pj := coo.margin (fun r => r.2) (npUnique ys).length
  if xs.length = 0 then .error .valueError
  else if pi.length = 1 ∨ pj.length = 1 then .ok 0
  else do
    let total := coo.total
    let terms ← coo.cells.mapM (fun e => do
      let outer := prodU64 [pi.getD e.1.1 0, pj.getD e.1.2 0]
      let pJoint : ℝ := (e.2 : ℝ) / (total : ℝ)
      let logPJoint ← lg (e.2 : ℝ)
      let logOuter' ← lg (outer : ℝ)
      let logPi ← lg (pi.sum : ℝ)
      let logPj ← lg (pj.sum : ℝ)
      let logTotal ← lg (total : ℝ)
      let logOuter := - logOuter' + logPi + logPj
      pure (pJoint * (logPJoint - logTotal) + pJoint * logOuter))
    addCorr mm (fun base => millerMadowCorr [(npUnique xs).length, (npUnique ys).length]
      coo.vals.length xs.length base none) (max terms.sum 0)

/-- `_mutual_information_global_nd_other`, `discrete_interaction_information.py:197-246`, for data
whose samples are rows (`ndim > 1`); a sample of a variable is a value of type `α` (a tuple).
`collections.Counter` gives the distinct keys with their counts. -/
noncomputable def miNdOther [Inhabited α] (lg : ℝ → Except Exc ℝ) (data : List (List α))
    (mm : Option Base) : Except Exc ℝ := do
  let n := (data.headD []).length
  let joint := (List.range n).map (fun t => data.map (fun c => c.getD t default))
  let jc := Coo.ofRows joint
  let mcs := data.map (fun v => Coo.ofRows v)
  let terms ← jc.cells.mapM (fun e => do
    let pJoint : ℝ := (e.2 : ℝ) / (jc.total : ℝ)
    let prod : ℝ := ((mcs.zip e.1).map (fun m =>
      ((m.1.sumWhere (fun k => decide (k = m.2)) : ℕ) : ℝ) / (m.1.total : ℝ))).prod
    let l ← lg (pJoint / prod)
    pure (pJoint * l))
  if terms.length = 0 then .ok 0
  else
    addCorr mm (fun base => millerMadowCorr (mcs.map (fun m => m.coords.length)) jc.coords.length n
      base none) terms.sum

/-- `mutual_information_local`, `discrete_interaction_information.py:249-331`. -/
noncomputable def miLocal (lg : ℝ → Except Exc ℝ) (data : List (List α)) (mm : Option Base) :
    Except Exc (List ℝ) :=
  let rows := indexRows data
  let coo := Coo.ofRows rows
  let shape := data.map (fun v => (npUnique v).length)
  let margins := miMargins data
  if margins.any (fun m => decide (m.length = 1)) then
    .ok (List.replicate (data.headD []).length 0)
  else do
    let total : ℝ := (coo.total : ℝ)
    rows.mapM (fun r => do
      let pJoint : ℝ := (coo.sumWhere (fun s => decide (s = r)) : ℝ) / total
      let outer : ℝ := ((margins.zip r).map (fun p => ((p.1.getD p.2 0 : ℕ) : ℝ) / total)).prod
      let lo ← lg outer
      let lp ← lg pJoint
      addCorr mm (fun base => millerMadowCorr shape coo.vals.length (data.headD []).length base none)
        (- lo + lp))

/-- Data handed to `mutual_information_global`: all variables one-dimensional, all two-dimensional,
or mixed.  (Rows of a two-dimensional variable are tuples of symbols, here lists.) -/
inductive MIData
  | all1D (cols : List (List Int))
  | all2D (cols : List (List (List Int)))
  | mixed

/-- `mutual_information_global`, `discrete_interaction_information.py:26-78`: path selection.
With mixed dimensions the `Counter` path calls `tuple(...)` on a number: TypeError. -/
noncomputable def miGlobal (lg : ℝ → Except Exc ℝ) (data : MIData) (mm : Option Base) :
    Except Exc ℝ :=
  match data with
  | .all1D cols =>
    match cols with
    | [xs, ys] => mi2dInt lg xs ys mm
    | _ => miNdInt lg cols mm
  | .all2D cols => miNdOther lg cols mm
  | .mixed => .error .typeError

end nd

section cond
variable {α γ : Type} [LinearOrder α] [LinearOrder γ]

/-- cell coordinates of the conditional table: index row of the variables and the index of the
condition, `discrete_interaction_information.py:401-412`. -/
def condRows (data : List (List α)) (cond : List γ) : List (List Nat × Nat) :=
  (List.range cond.length).map
    (fun t => ((data.map npInverse).map (fun c => c.getD t 0), (npInverse cond).getD t 0))

/-- number of non-zero cells of the `i`-th variable × condition table (`count_nonzero(marg)`) -/
def condNonzero (coo : Coo (List Nat × Nat)) (i ki kz : Nat) : Nat :=
  ((List.range ki).map (fun j => ((List.range kz).map (fun k =>
    if coo.sumWhere (fun r => decide (r.1.getD i 0 = j) && decide (r.2 = k)) = 0 then 0 else 1)).sum)).sum

/-- `_conditional_mutual_information_global_nd_int`,
`discrete_interaction_information.py:396-471`. -/
noncomputable def cmiNdInt (lg : ℝ → Except Exc ℝ) (data : List (List α)) (cond : List γ)
    (mm : Option Base) : Except Exc ℝ :=
  let coo := Coo.ofRows (condRows data cond)
  let shape := data.map (fun v => (npUnique v).length)
  let kz := (npUnique cond).length
  -- `count_marginals_cond[i]`, a table of size `shape[i] × kz`
  let mc := fun (i : Nat) (j k : Nat) =>
    coo.sumWhere (fun r => decide (r.1.getD i 0 = j) && decide (r.2 = k))
  let countCond := coo.margin (fun r => r.2) kz
  if shape.any (fun s => decide (s * kz = 1)) then .ok 0
  else do
    let total := coo.total
    let terms ← coo.cells.mapM (fun e => do
      let outer := prodU64 ((e.1.1.zipIdx).map (fun p => mc p.2 p.1 e.1.2))
      let pJoint : ℝ := (e.2 : ℝ) / (total : ℝ)
      let pCond := countCond.getD e.1.2 0
      let lvp ← lg ((prodU64 [e.2, pCond] : ℕ) : ℝ)
      let lt ← lg (total : ℝ)
      let lo ← lg (outer : ℝ)
      -- `sum(log_func(count_m.sum()) for count_m in count_marginals_cond[:-1])`
      let logs ← (List.range (data.length - 1)).mapM (fun _ => lg (total : ℝ))
      pure (pJoint * (lvp - lt) + pJoint * (- lo + logs.sum)))
    addCorr mm (fun base => millerMadowCorr
      ((shape.zipIdx).map (fun p => condNonzero coo p.2 p.1 kz))
      coo.vals.length (data.headD []).length base (some countCond.length)) terms.sum

/-- `conditional_mutual_information_local`, `discrete_interaction_information.py:474-568`. -/
noncomputable def cmiLocal (lg : ℝ → Except Exc ℝ) (data : List (List α)) (cond : List γ)
    (mm : Option Base) : Except Exc (List ℝ) :=
  let rows := condRows data cond
  let coo := Coo.ofRows rows
  let shape := data.map (fun v => (npUnique v).length)
  let kz := (npUnique cond).length
  let mc := fun (i : Nat) (j k : Nat) =>
    coo.sumWhere (fun r => decide (r.1.getD i 0 = j) && decide (r.2 = k))
  let countCond := coo.margin (fun r => r.2) kz
  if shape.any (fun s => decide (s * kz = 1)) then .ok (List.replicate (data.headD []).length 0)
  else do
    let total : ℝ := (coo.total : ℝ)
    rows.mapM (fun r => do
      let pJoint : ℝ := (coo.sumWhere (fun s => decide (s = r)) : ℝ) / total
      let pCond : ℝ := (countCond.getD r.2 0 : ℝ) / total
      let outer : ℝ := ((r.1.zipIdx).map (fun p => ((mc p.2 p.1 r.2 : ℕ) : ℝ) / total)).prod
      let a ← lg (pJoint * pCond)
      let o ← lg outer
      addCorr mm (fun base => millerMadowCorr
        ((shape.zipIdx).map (fun p => condNonzero coo p.2 p.1 kz))
        coo.vals.length (data.headD []).length base (some countCond.length)) (a - o))

end cond

end Verif
