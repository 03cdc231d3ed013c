import Verif.Spec.EndToEndLocal
import Verif.Model.EndToEndTest

/-!
# Specification: resampled data sets
-/

namespace Verif

/-- the number of samples of an array -/
def PyData.size : PyData → Nat
  | .ints xs => xs.length
  | .reals xs => xs.length
  | .mat a => a.rows.length
  | .imat _ rows => rows.length
  | _ => 0

/-- the array made of the samples with the given numbers, in the given order -/
def PyData.pick (rows : List Nat) : PyData → PyData
  | .ints xs => .ints (rows.map (fun i => xs.getD i 0))
  | .reals xs => .reals (rows.map (fun i => xs.getD i 0))
  | .mat a => .mat { a with rows := rows.map (fun i => a.rows.getD i []) }
  | .imat c rs => .imat c (rows.map (fun i => rs.getD i []))
  | d => d

namespace Spec

/-- the numbers of the samples of the first of two variables of `n` samples that have a partner at offset `o` -/
def keptX (n : Nat) (o : Int) : List Nat := if 0 ≤ o then List.range (n - o.toNat) else (List.range n).drop (-o).toNat

/-- the same for the second variable -/
def keptY (n : Nat) (o : Int) : List Nat := if 0 ≤ o then (List.range n).drop o.toNat else List.range (n - (-o).toNat)

example : keptX 5 2 = [0, 1, 2] ∧ keptY 5 2 = [2, 3, 4] := by decide
example : keptX 5 (-2) = [2, 3, 4] ∧ keptY 5 (-2) = [0, 1, 2] := by decide

/-- the samples `kept[i]` for the drawn numbers `i` -/
def among (kept drawn : List Nat) : List Nat := drawn.map (fun i => kept.getD i 0)

/-- the same keyword arguments with `offset=0` -/
def noOffset (kw : Kw) : Kw := fun k => if k = "offset" then some (.int 0) else kw k

/-- the two methods of a test -/
def KnownMethod (m : String) : Prop := m = "permutation_test" ∨ m = "bootstrap"

instance (m : String) : Decidable (KnownMethod m) := inferInstanceAs (Decidable (_ ∨ _))

section
variable {G : Type} (E : TestEnv G) (method : String)

/-- what the generator draws in state `g` for `n` samples: all of them in a new order (permutation test), or `n` of them with replacement (bootstrap);
and its state afterwards -/
def drawn (n : Nat) (g : G) : List Nat × G := if method = "permutation_test" then E.rng.perm n g else E.rng.choice n g

/-- the rounds of a test of a (conditional) mutual information: in each round the generator draws samples and then computes -/
def rounds (n : Nat) : Nat → G → List (List Nat × G)
  | 0, _ => []
  | k + 1, g => drawn E method n g :: rounds n k (E.next (drawn E method n g).2)

/-- the state after these rounds -/
def afterRounds (n : Nat) : Nat → G → G
  | 0, g => g
  | k + 1, g => afterRounds n k (E.next (drawn E method n g).2)

/-- the states in which the `k` computations of a test of a (conditional) transfer entropy start -/
def states : Nat → G → List G
  | 0, _ => []
  | k + 1, g => g :: states k (E.next g)

end

/-- what a result says of its own test values: at least two of them, one per test; the p-value is the fraction of test values above the observed
value; the null mean is their mean -/
def Summary (r : StatRes) : Prop :=
  2 ≤ r.nTests ∧ (r.testValues.length : Int) = r.nTests ∧
  r.pValue = ((r.testValues.filter (fun v => decide (r.observed < v))).length : ℝ) / r.testValues.length ∧
  r.nullMean = r.testValues.sum / r.testValues.length

/-- a test that can never reject: every test value is the observed value, the p-value is 0 and there is no t-score -/
def Vacuous (r : StatRes) : Prop :=
  (∀ v ∈ r.testValues, v = r.observed) ∧ r.pValue = 0 ∧ r.tScore = none

/-- a transfer entropy as a computation: shift the series by the propagation time, prepare each of them (noise, ordinal patterns), cut them into
history rows and futures with `te_observations`, replace the rows of the source history by the selected ones, and evaluate a function of these tables -/
noncomputable def viaTables {β α : Type} (prep : Nat → Nat → List β → Except Exc (List α)) (Φ : TESlices α → Except Exc ℝ) (propTime offset : Option PyArg)
    (srcHist destHist step : PyArg) (xs ys : List β) (sel : Nat → List Nat) : Except Exc ℝ := do
  let c ← teInit xs ys propTime offset step
  let xs ← prep c.1.length 0 c.1
  let ys ← prep c.1.length 1 c.2
  let t ← teObservations xs ys srcHist destHist step {}
  Φ { t with src := (sel t.src.length).map (fun i => t.src.getD i []) }

end Spec

end Verif
