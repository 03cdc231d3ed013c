import Verif.Props.Ordinal2
import Verif.Props.OrdinalDiv

/-!
# C29: which arguments the ordinal entropy accepts
-/

namespace Verif

open Spec

section
variable {α : Type} [LinearOrder α] [Inhabited α]

/-- global and local values both fail with this exception -/
def OrdFails (q : Argsort α) (args : List (OInput α)) (p : OrdParams) (b : Base) (e : Exc) : Prop :=
  ordEntropy q args p b = .error e ∧ ordEntropyLocal q args p b = .error e

theorem ordFails_of_init {q : Argsort α} {args : List (OInput α)} {p : OrdParams} {b : Base} {e : Exc}
    (h : ordInit args p = .error e) : OrdFails q args p b e := by
  constructor
  · simp only [ordEntropy, h, bind, Except.bind]
  · simp only [ordEntropyLocal, h, bind, Except.bind]

/-- **C29** No argument, more than two, something that is not array-like, series of different lengths in a joint variable, or a joint
variable in a cross-entropy: ValueError, from the global and from the local values, whatever the parameters. -/
theorem C29_arguments (q : Argsort α) (args : List (OInput α)) (p : OrdParams) (b : Base)
    (h : args.length = 0 ∨ 3 ≤ args.length ∨ args = [.other] ∨
      (∃ cols : List (List α), args = [.tup cols] ∧ ∃ c ∈ cols, ∃ c' ∈ cols, c.length ≠ c'.length) ∨
      (args.length = 2 ∧ ∃ a ∈ args, a = .tupN ∨ a = .other ∨ ∃ cols, a = .tup cols)) :
    OrdFails q args p b .valueError := by
  apply ordFails_of_init
  suffices hb : ordBaseInit args = .error .valueError by simp only [ordInit, hb, bind, Except.bind]
  rcases h with h | h | rfl | ⟨cols, rfl, c, hc, c', hc', hne⟩ | ⟨h2, a, ha, h⟩
  · rw [List.length_eq_zero_iff.1 h]; rfl
  · match args, h with
    | _ :: _ :: _ :: _, _ => rfl
  · rfl
  · have : cols.all (fun d => decide (d.length = (cols.headD []).length)) = false := by
      rw [Bool.eq_false_iff]
      intro hall
      rw [List.all_eq_true] at hall
      exact hne ((of_decide_eq_true (hall c hc)).trans (of_decide_eq_true (hall c' hc')).symm)
    simp only [ordBaseInit, this, Bool.false_eq_true, if_false]
  · match args, h2 with
    | [x, y], _ =>
      simp only [List.mem_cons, List.not_mem_nil, or_false] at ha
      rcases ha with rfl | rfl
      · rcases h with rfl | rfl | ⟨cols, rfl⟩ <;> rfl
      · rcases h with rfl | rfl | ⟨cols, rfl⟩ <;> cases x <;> rfl

example := C29_arguments stableSort [.tup [[1, 2, 3], [1, 2]]] { dim := .int 2 } .e
  (.inr (.inr (.inr (.inl ⟨_, rfl, [1, 2, 3], by simp, [1, 2], by simp, by simp⟩))))
example := C29_arguments stableSort [.arr1 [1, 2, 3], .tup [[1, 2, 3], [4, 5, 6]]] { dim := .int 2 } .e
  (.inr (.inr (.inr (.inr ⟨rfl, _, List.mem_cons_of_mem _ (List.mem_singleton_self _), .inr (.inr ⟨_, rfl⟩)⟩))))

/-- **C29** The parameters are checked for joint and cross-entropies and for the local values alike: a negative or non-integer embedding
dimension, a step below 1, a window longer than the (first) series: ValueError. -/
theorem C29_parameters (q : Argsort α) (args : List (OInput α)) (n : Nat) (p : OrdParams) (b : Base)
    (ha : (∃ x : List α, args = [.arr1 x] ∧ x.length = n) ∨
      (∃ cols : List (List α), args = [.tup cols] ∧ cols ≠ [] ∧ ∀ c ∈ cols, c.length = n) ∨
      (∃ x y : List α, args = [.arr1 x, .arr1 y] ∧ x.length = n))
    (h : (¬ ∃ d : Nat, p.dim = .int d) ∨ (¬ ∃ s : Nat, 1 ≤ s ∧ p.step = .int s) ∨
      ∃ d s : Nat, 1 ≤ d ∧ p.dim = .int d ∧ p.step = .int s ∧ n ≤ (d - 1) * s) :
    OrdFails q args p b .valueError := by
  apply ordFails_of_init
  have hb : ordBaseInit args = .ok args := by
    rcases ha with ⟨x, rfl, _⟩ | ⟨cols, rfl, hne, hl⟩ | ⟨x, y, rfl, _⟩
    · rfl
    · have : cols.all (fun d => decide (d.length = (cols.headD []).length)) = true := by
        rw [List.all_eq_true]
        intro c hc
        obtain ⟨c0, t, rfl⟩ := List.exists_cons_of_ne_nil hne
        rw [decide_eq_true_iff, hl c hc, List.headD_cons, hl c0 (by simp)]
      simp only [ordBaseInit, this, if_true]
    · rfl
  simp only [ordInit, hb, bind, Except.bind]
  rw [if_neg (by rcases ha with ⟨x, rfl, _⟩ | ⟨cols, rfl, hne, hl⟩ | ⟨x, y, rfl, _⟩ <;> simp)]
  by_cases h1 : p.dim.intGe 0 = false
  · simp only [h1, if_true]
  by_cases h2 : p.step.intGe 1 = false
  · simp only [if_neg h1, h2, if_true]
  simp only [if_neg h1, if_neg h2]
  have hd : ∃ d : Nat, p.dim = .int d := by
    cases hdim : p.dim with
    | int z =>
      rw [hdim] at h1
      simp only [PyArg.intGe, decide_eq_false_iff_not, not_not] at h1
      exact ⟨z.toNat, by rw [Int.toNat_of_nonneg h1]⟩
    | _ => rw [hdim] at h1; exact absurd rfl h1
  have hs : ∃ s : Nat, 1 ≤ s ∧ p.step = .int s := by
    cases hst : p.step with
    | int z =>
      rw [hst] at h2
      simp only [PyArg.intGe, decide_eq_false_iff_not, not_not] at h2
      exact ⟨z.toNat, by omega, by rw [Int.toNat_of_nonneg (by omega)]⟩
    | _ => rw [hst] at h2; exact absurd rfl h2
  rcases h with h | h | ⟨d, s, hd1, e1, e2, hn⟩
  · exact absurd hd h
  · exact absurd hs h
  · have hgt : ((d : Int) - 1) * s + 1 > (n : Int) := by
      have : ((d : Int) - 1) = ((d - 1 : Nat) : Int) := by omega
      rw [this]
      have : n < (d - 1) * s + 1 := by omega
      exact_mod_cast this
    simp only [e1, e2, PyArg.val]
    rcases ha with ⟨x, rfl, hx⟩ | ⟨cols, rfl, hne, hl⟩ | ⟨x, y, rfl, hx⟩
    · simp [hx, hgt]
    · obtain ⟨c0, t, rfl⟩ := List.exists_cons_of_ne_nil hne
      simp [hl c0 (by simp), hgt]
    · simp [hx, hgt]

example := C29_parameters stableSort [.arr1 [1, 2, 3], .arr1 [4, 5]] 3 { dim := .int 2, step := .int 0 } .e
  (.inr (.inr ⟨_, _, rfl, rfl⟩)) (.inr (.inl (by rintro ⟨s, h, e⟩; injection e; omega)))

/-- **C29** The cross-entropy has no local values: UnsupportedOperation for any two series and valid parameters. -/
theorem C29_cross_no_local (q : Argsort α) (x y : List α) (d s : Nat) (hs : 1 ≤ s) (hx : d = 0 ∨ (d - 1) * s < x.length)
    (stable : Bool) (b : Base) :
    ordEntropyLocal q [.arr1 x, .arr1 y] { dim := .int d, step := .int s, stable := stable } b = .error .unsupportedOperation := by
  have hs' : (1 : Int) ≤ s := by exact_mod_cast hs
  have hle : ¬ (((d : Int) - 1) * s + 1 > (x.length : Int)) := by
    rcases hx with rfl | hx
    · push_cast; nlinarith [hs']
    · rcases Nat.eq_zero_or_pos d with rfl | hd
      · push_cast; nlinarith [hs']
      · have : ((d : Int) - 1) = ((d - 1 : Nat) : Int) := by omega
        rw [this]
        have : (d - 1) * s + 1 ≤ x.length := by omega
        exact not_lt.2 (by exact_mod_cast this)
  simp [ordEntropyLocal, ordInit, ordBaseInit, bind, Except.bind, PyArg.intGe, PyArg.val, hs', hle, pure, Except.pure]

example := C29_cross_no_local stableSort [3, 1, 2, 5] [1, 2] 3 1 (by decide) (.inr (by decide)) false .e

end

end Verif
