import Verif.Props.Dispatch2
import Verif.Props.Ordinal2

/-! # C58: what the dropped `step_size` means for the ordinal entropy -/

namespace Verif

open Spec

/-- keyword values of the ordinal entropy -/
def argOr (kw : String → Option PyArg) (k : String) (d : PyArg) : PyArg := (kw k).getD d

/-- `OrdinalEntropyEstimator(*data, **kw)` (`estimators/entropy/ordinal.py:64-76`) as an estimator class
that returns its value; the other classes are not needed here -/
noncomputable def ordinalCtor (q : Argsort Int) (b : Base) (c : CtorCall (List Int) PyArg) : Except Exc ℝ :=
  if c.cls = ⟨.h, .ordinal⟩ then
    ordEntropy q (c.data.map .arr1)
      { dim := argOr c.kw "embedding_dim" .other, step := argOr c.kw "step_size" (.int 1) } b
  else .error .notImplementedError

/-- **C58** (negative, concrete) `estimator(x, measure="entropy", approach="ordinal", embedding_dim=2,
step_size=2)` is not the estimator `entropy` uses with the same arguments: on `[0, 2, 1, 3]` the functional
interface gives 0 and the factory a positive value. -/
theorem C58_ordinal_step_size_lost (L : PyLower) (q : Argsort Int) (b : Base) (hb : b.Std) :
    let x : List Int := [0, 2, 1, 3]
    let kw : String → Option PyArg := fun k =>
      if k = "embedding_dim" then some (.int 2) else if k = "step_size" then some (.int 2) else none
    ∃ v, (callEntropy L [x] (.str "ordinal") .absent kw >>= ordinalCtor q b) = .ok 0 ∧
      (callEstimator L .int [x] none (.str "entropy") (.str "ordinal") kw >>= ordinalCtor q b) = .ok v ∧ 0 < v := by
  intro x kw
  have hord : Names L .h (.str "ordinal") .ordinal :=
    ⟨_, rfl, by rw [lower_variant L (name := "ordinal") (by decide) (by unfold CaseVariant; decide)]; decide⟩
  have hcomp : measureComp L "entropy" ∈ measureNames .h := by
    unfold measureComp; rw [lower_entropy]; decide
  have hres : Resolves L .h (.str "ordinal") := by obtain ⟨s, e, h⟩ := hord; exact ⟨s, _, e, h⟩
  refine ⟨permEntropy x 2 1 / b.ln, ?_, ?_, ?_⟩
  · rcases C46_entropy_guard L [x] (.str "ordinal") .absent kw with ⟨_, f, hf, e⟩ | ⟨h, _⟩
    · rw [e, hf.unique hord]
      show ordEntropy q [.arr1 x] { dim := .int 2, step := .int 2, stable := false } b = .ok 0
      have := C28_ordinal_entropy_is_permutation_entropy q x 2 2 (by decide) (by decide) (by decide)
        (by unfold TieFree; decide) false b hb.valid
      rw [show ((2 : Nat) : Int) = 2 from rfl] at this
      rw [this]
      have h0 : permEntropy x 2 2 = 0 := by
        unfold permEntropy
        rw [entropy_eq_zero_iff]
        decide
      rw [h0, zero_div]
    · exact absurd hres h
  · rcases C46_estimator_entropy_guard L .int [x] none "entropy" (.str "ordinal") kw hcomp with
      ⟨_, f, hf, e⟩ | ⟨h, _⟩
    · rw [e, hf.unique hord]
      have hkw : ordinalCtor q b { cls := ⟨.h, .ordinal⟩, data := [x], cond := .absent, kw := restKw kw } =
          ordEntropy q [.arr1 x] { dim := .int 2, step := .int 1, stable := false } b := by
        unfold ordinalCtor
        rw [if_pos rfl]
        congr 1
      simp only [bind, Except.bind]
      rw [hkw]
      have := C28_ordinal_entropy_is_permutation_entropy q x 2 1 (by decide) (by decide) (by decide)
        (by unfold TieFree; decide) false b hb.valid
      rw [show ((2 : Nat) : Int) = 2 from rfl, show ((1 : Nat) : Int) = 1 from rfl] at this
      exact this
    · exact absurd ⟨rfl, Or.inl rfl, hres⟩ h
  · refine div_pos ?_ hb.ln_pos
    have hne : permEntropy x 2 1 ≠ 0 := by
      unfold permEntropy
      rw [Ne, entropy_eq_zero_iff]
      decide
    have h0 : 0 ≤ permEntropy x 2 1 := entropy_nonneg _
    exact lt_of_le_of_ne h0 (Ne.symm hne)

example := C58_ordinal_step_size_lost asciiLower stableSort (.num 2) (by norm_num [Base.Std])

/-- specification: two spellings of a name that differ only in capitalisation and in writing spaces, hyphens or underscores -/
def SameSpelling (m name : String) : Prop :=
  m.toList.map (fun c => if c = ' ' ∨ c = '-' then '_' else c.toLower) =
    name.toList.map (fun c => if c = ' ' ∨ c = '-' then '_' else c.toLower)

theorem measureComp_ascii (L : PyLower) (m : String) (hm : ∀ c ∈ m.toList, c.toNat < 128) :
    measureComp L m = String.ofList (m.toList.map (fun c => if c = ' ' ∨ c = '-' then '_' else c.toLower)) := by
  unfold measureComp
  rw [L.ascii m hm, List.map_map]
  congr 1
  refine List.map_congr_left (fun c hc => ?_)
  have key : ∀ n : Fin 128, let c := Char.ofNat n
      (if c.toLower = ' ' then '_' else if c.toLower = '-' then '_' else c.toLower) =
        if c = ' ' ∨ c = '-' then '_' else c.toLower := by decide
  have := key ⟨c.toNat, hm c hc⟩
  simpa [Char.ofNat_toNat] using this

/-- **C58** The factory does not distinguish spellings of the measure's name: capitals or not, with spaces, hyphens or
underscores (`"Transfer Entropy"`, `"transfer-entropy"`, `"transfer_entropy"`) – every result and exception is the same. -/
theorem C58_measure_spelling {D V : Type} (L : PyLower) (ofInt : Int → V) (data : List D) (cond : Option D) (m name : String)
    (hm : ∀ c ∈ m.toList, c.toNat < 128) (hn : ∀ c ∈ name.toList, c.toNat < 128) (h : SameSpelling m name)
    (a : PyName) (kw : String → Option V) :
    callEstimator L ofInt data cond (.str m) a kw = callEstimator L ofInt data cond (.str name) a kw := by
  have : measureComp L m = measureComp L name := by
    rw [measureComp_ascii L m hm, measureComp_ascii L name hn, h]
  unfold callEstimator
  simp only [this]

/-- non-vacuity: a spelling with capitals, spaces and hyphens resolves to the transfer-entropy class -/
example (L : PyLower) (x y : List Int) (kw : String → Option PyArg) :
    ∃ c, callEstimator L .int [x, y] none (.str "Transfer-Entropy") (.str "discrete") kw = .ok c ∧ c.cls = ⟨.te, .discrete⟩ := by
  rw [C58_measure_spelling L PyArg.int [x, y] none "Transfer-Entropy" "transfer entropy" (by decide) (by decide)
    (by unfold SameSpelling; decide)]
  have hcomp : measureComp L "transfer entropy" ∈ measureNames .te := by
    rw [measureComp_ascii L _ (by decide)]; decide
  have hord : Names L .te (.str "discrete") .discrete :=
    ⟨_, rfl, by rw [lower_variant L (name := "discrete") (by decide) (by unfold CaseVariant; decide)]; decide⟩
  have hres : Resolves L .te (.str "discrete") := by obtain ⟨s, e, h⟩ := hord; exact ⟨s, _, e, h⟩
  rcases C46_estimator_te_guard L .int [x, y] none "transfer entropy" (.str "discrete") kw .te (Or.inl rfl) hcomp with
    ⟨_, f, hf, e⟩ | ⟨h, _⟩
  · exact ⟨_, e, by rw [hf.unique hord]; rfl⟩
  · exact absurd ⟨fun h => absurd h (by decide), by simp, hres⟩ h

end Verif
