import Verif.Lemmas.EndToEndTest5

/-!
# Statistical tests end to end: transfer entropy
-/

namespace Verif

open Spec

section
variable {G : Type} {E : TestEnv G} {W : World} {nT : Option PyArg} {m : Option String} {g : G}

theorem te_loop_eq {comp : TECalc G} (F : World → TEFlags → G → Except Exc ℝ)
    (hc : ∀ fl g, comp fl g = ((F (W.withDraw (E.normal g)) fl g).map CalcRes.scalar, E.next g)) (n : Nat) (s : TEInner G) :
    (match (teLoop comp n s).1 with
      | .error e => (.error e : Except Exc (List ℝ))
      | .ok rs => rs.mapM testValue) = (states E n s.rng).mapM (fun g => F (W.withDraw (E.normal g)) s.flags g) ∧
    ((∃ vs, (states E n s.rng).mapM (fun g => F (W.withDraw (E.normal g)) s.flags g) = .ok vs) →
      (teLoop comp n s).2.rng = E.next^[n] s.rng ∧ (teLoop comp n s).2.flags = s.flags) := by
  induction n generalizing s with
  | zero => exact ⟨rfl, fun _ => ⟨rfl, rfl⟩⟩
  | succ n ih =>
    simp only [states, List.mapM_cons, teLoop, bind, Except.bind, hc]
    cases hf : F (W.withDraw (E.normal s.rng)) s.flags s.rng with
    | error e => exact ⟨rfl, fun ⟨_, h⟩ => by cases h⟩
    | ok v =>
      simp only [Except.map]
      obtain ⟨h1, h2⟩ := ih { s with rng := E.next s.rng }
      simp only at h1 h2
      cases hl : teLoop comp n { s with rng := E.next s.rng } with
      | mk q s2 =>
        rw [hl] at h1 h2
        simp only at h1 h2
        rw [← h1] at h2 ⊢
        cases q with
        | error e => exact ⟨rfl, fun ⟨_, h⟩ => by cases h⟩
        | ok rs =>
          simp only [List.mapM_cons, testValue, bind, Except.bind]
          refine ⟨trivial, fun ⟨vs, h⟩ => ?_⟩
          simp only at h2
          cases hr : rs.mapM testValue with
          | error e => rw [hr] at h; cases h
          | ok us => exact h2 ⟨us, hr⟩

/-- a test of a (conditional) transfer-entropy object, as a computation -/
theorem run_te_eq (F : World → TEFlags → G → Except Exc ℝ) :
    (statisticalTestTE (fun fl g => ((F (W.withDraw (E.normal g)) fl g).map CalcRes.scalar, E.next g))
      (fun _ => .error .attributeError) E.cfg nT m ⟨{ rng := g }, none, none⟩).1 = (do
      let a ← testArgs E.cfg nT m
      match methodFlags a.2 with
      | none => .error .valueError
      | some fl => do
        let vs ← (states E a.1.toNat g).mapM (fun g => F (W.withDraw (E.normal g)) fl g)
        let obs ← F (W.withDraw (E.normal (E.next^[a.1.toNat] g))) {} (E.next^[a.1.toNat] g)
        statResult obs vs a.1 a.2) := by
  unfold statisticalTestTE statTestTE
  cases ha : testArgs E.cfg nT m with
  | error e => rfl
  | ok a =>
    obtain ⟨n, mth⟩ := a
    simp only [bind, Except.bind, testTE]
    cases hfl : methodFlags mth with
    | none => rfl
    | some fl =>
      simp only
      obtain ⟨h1, h2⟩ := te_loop_eq (E := E) (W := W) F
        (comp := fun fl g => ((F (W.withDraw (E.normal g)) fl g).map CalcRes.scalar, E.next g)) (fun _ _ => rfl) n.toNat
        ({ flags := fl, rng := g } : TEInner G)
      simp only at h1 h2
      cases hl : teLoop (fun fl g => ((F (W.withDraw (E.normal g)) fl g).map CalcRes.scalar, E.next g)) n.toNat
          ({ flags := fl, rng := g } : TEInner G) with
      | mk q s2 =>
        rw [hl] at h1 h2
        simp only at h1 h2
        rw [← h1] at h2 ⊢
        cases q with
        | error e => rfl
        | ok rs =>
          simp only at h2 ⊢
          cases hr : rs.mapM testValue with
          | error e => rfl
          | ok us =>
            obtain ⟨e1, e2⟩ := h2 ⟨us, hr⟩
            simp only [EstObj.globalVal, EstObj.calculate, teCode, e1]
            cases F (W.withDraw (E.normal (E.next^[n.toNat] g))) {} (E.next^[n.toNat] g) with
            | error e => rfl
            | ok v => rfl

end

end Verif
