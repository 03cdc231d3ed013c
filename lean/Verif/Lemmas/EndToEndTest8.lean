import Verif.Lemmas.EndToEndTest7
import Verif.Props.VecTE
import Verif.Props.StatTest3

/-!
# Statistical tests end to end: the draws of transfer entropy select rows of the source history
-/

set_option linter.unusedSimpArgs false

namespace Verif

open Spec

theorem teObservations_select {α : Type} [Inhabited α] (source dest : List α) (l k s : PyArg) (hlen : source.length = dest.length) {rnd : SrcRandom}
    (hr : rnd.Lawful) :
    teObservations source dest l k s rnd =
      (teObservations source dest l k s {}).map (fun t => { t with src := (srcSel rnd t.src.length).map (fun i => t.src.getD i []) }) := by
  by_cases hp : [l, k, s].all PyArg.posInt = true
  · simp only [List.all_cons, List.all_nil, Bool.and_true, Bool.and_eq_true] at hp
    obtain ⟨h1, h2, h3⟩ := hp
    have conv : ∀ a : PyArg, a.posInt = true → ∃ n : Nat, 0 < n ∧ a = .int n := by
      intro a ha
      cases a with
      | int n =>
        simp only [PyArg.posInt, decide_eq_true_eq] at ha
        exact ⟨n.toNat, by omega, by rw [Int.toNat_of_nonneg (by omega)]⟩
      | _ => simp [PyArg.posInt] at ha
    obtain ⟨l, hl, rfl⟩ := conv _ h1
    obtain ⟨k, hk, rfl⟩ := conv _ h2
    obtain ⟨s, hs, rfl⟩ := conv _ h3
    by_cases hm : max k l * s < source.length
    · rw [teObservations_ok source dest l k s hs hl hk hm hlen hr, teObservations_ok source dest l k s hs hl hk hm hlen lawful_none]
      simp only [Except.map, srcSel_none, List.length_map, List.length_range]
      congr 2
      refine List.map_congr_left (fun i hi => ?_)
      have := srcSel_lt hr _ i hi
      simp [List.getD_eq_getElem?_getD, this]
    · have : (source.length : Int) ≤ max (PyArg.int (k : Int)).val (PyArg.int (l : Int)).val * (PyArg.int (s : Int)).val := by
        simp only [PyArg.val]
        push Not at hm
        exact_mod_cast hm
      unfold teObservations
      simp only [if_pos this]
      split_ifs <;> rfl
  · have hp' : [l, k, s].all PyArg.posInt = false := by simpa using hp
    unfold teObservations
    cases s <;> simp only [hp', if_true] <;> rfl

theorem viaObs_select {β α : Type} [Inhabited α] {prep : (Nat → Nat → Nat → ℝ) → Nat → Nat → List β → Except Exc (List α)} (hL : PrepLen prep)
    (d : Nat → Nat → Nat → ℝ) (Φ : TESlices α → Except Exc ℝ) (u o : Option PyArg) (l k s : PyArg) (xs ys : List β) {rnd : SrcRandom} (hr : rnd.Lawful) :
    viaObs (prep d) Φ u o l k s xs ys rnd = viaTables (prep d) Φ u o l k s xs ys (srcSel rnd) := by
  unfold viaObs viaTables
  cases hc : teInit xs ys u o s with
  | error e => rfl
  | ok c =>
    simp only [bind, Except.bind]
    cases hx : prep d c.1.length 0 c.1 with
    | error e => rfl
    | ok x =>
      cases hy : prep d c.1.length 1 c.2 with
      | error e => rfl
      | ok y =>
        simp only
        by_cases hs : s.posInt = true
        · have hlen := (teInit_shape (x := c.1) (y := c.2) hc).1 hs
          rw [teObservations_select x y l k s (hL d _ _ _ _ _ hlen hx hy) hr]
          cases teObservations x y l k s {} <;> rfl
        · have : ∃ e, ∀ rnd, teObservations x y l k s rnd = .error e := by
            have hp' : [l, k, s].all PyArg.posInt = false := by
              simp [List.all_cons, hs]
            unfold teObservations
            cases s with
            | other => exact ⟨_, fun _ => rfl⟩
            | int n => exact ⟨.valueError, fun _ => by simp only [hp', if_true]⟩
            | num r => exact ⟨.valueError, fun _ => by simp only [hp', if_true]⟩
          obtain ⟨e, h⟩ := this
          rw [h, h]

theorem srcSel_teRandom {G : Type} (E : TestEnv G) {m : String} {f : TEFlags} (hf : methodFlags m = some f) (g : G) (n : Nat) :
    srcSel (teRandom E.rng f g) n = (drawn E m n g).1 := by
  unfold methodFlags at hf
  unfold drawn
  split_ifs at hf with h1 h2
  · cases hf; simp [srcSel, teRandom, h1]
  · cases hf
    simp [srcSel, teRandom, h1]

end Verif
