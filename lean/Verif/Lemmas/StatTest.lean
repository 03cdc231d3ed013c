import Verif.Model.Lifecycle
import Verif.Props.Lifecycle

/-! # Lemmas about the resampling loops and the test statistics -/

namespace Verif

section MI
variable {D G : Type}

theorem miSelection_orig (comp : MICalc D G) (rs : D → G → D × G) (s : MIInner D G) :
    (miSelection comp rs s).2.orig = s.orig := by
  unfold miSelection
  split
  · simp only
    split <;> (first | rfl | assumption)
  · rfl
  · rfl

theorem miSelection_data (comp : MICalc D G) (rs : D → G → D × G) (s : MIInner D G) (x y : D)
    (h : s.orig = some [x, y]) :
    (miSelection comp rs s).2.data = [(rs x s.rng).1, y] := by
  unfold miSelection
  rw [h]
  simp only
  split <;> rfl

theorem miLoop_orig (comp : MICalc D G) (rs : D → G → D × G) (n : Nat) (s : MIInner D G) :
    (miLoop comp rs n s).2.orig = s.orig := by
  induction n generalizing s with
  | zero => rfl
  | succ n ih =>
    have h1 := miSelection_orig comp rs s
    unfold miLoop
    split
    · rename_i hs; rw [hs] at h1; exact h1
    · rename_i s1 hs
      rw [hs] at h1
      have h2 := ih s1
      split
      · rename_i hl; rw [hl] at h2; exact h2.trans h1
      · rename_i hl; rw [hl] at h2; exact h2.trans h1

theorem miLoop_length (comp : MICalc D G) (rs : D → G → D × G) (n : Nat) (s : MIInner D G)
    (vs : List ℝ) (h : (miLoop comp rs n s).1 = .ok vs) : vs.length = n := by
  induction n generalizing s vs with
  | zero => cases h; rfl
  | succ n ih =>
    unfold miLoop at h
    split at h
    · cases h
    · split at h
      · cases h
      · rename_i s1 _ _ ws s2 hl
        cases h
        simp [ih _ ws (by rw [hl])]

/-- second component of the data during the loop -/
theorem miLoop_data (comp : MICalc D G) (rs : D → G → D × G) (n : Nat) (s : MIInner D G) (x y : D)
    (h : s.orig = some [x, y]) :
    (miLoop comp rs n s).2.data = s.data ∧ n = 0 ∨ ∃ x', (miLoop comp rs n s).2.data = [x', y] := by
  induction n generalizing s with
  | zero => exact Or.inl ⟨rfl, rfl⟩
  | succ n ih =>
    right
    have h1 := miSelection_data comp rs s x y h
    have h2 := miSelection_orig comp rs s
    unfold miLoop
    split
    · rename_i hs; rw [hs] at h1; exact ⟨_, h1⟩
    · rename_i s1 hs
      rw [hs] at h1 h2
      have h3 := ih s1 (h2.trans h)
      split
      · rename_i hl; rw [hl] at h3
        rcases h3 with ⟨h3, -⟩ | h3
        · exact ⟨_, h3.trans h1⟩
        · exact h3
      · rename_i hl; rw [hl] at h3
        rcases h3 with ⟨h3, -⟩ | h3
        · exact ⟨_, h3.trans h1⟩
        · exact h3

/-- outcome of `_test_mi` -/
theorem testMI_spec (comp : MICalc D G) (R : Resampler D G) (n : Nat) (m : String) (s : MIInner D G) :
    (testMI comp R n m s).2.orig = some s.data ∧
    (∀ vs, (testMI comp R n m s).1 = .ok vs →
      vs.length = n ∧ (testMI comp R n m s).2.data = s.data ∧
      (m = "permutation_test" ∨ m = "bootstrap")) := by
  have key : ∀ rs, (match miLoop comp rs n { s with orig := some s.data } with
      | (.error e, s1) => ((.error e, s1) : Except Exc (List ℝ) × MIInner D G)
      | (.ok vs, s1) => (.ok vs, { s1 with data := s1.orig.getD s1.data })).2.orig = some s.data ∧
      (∀ vs, (match miLoop comp rs n { s with orig := some s.data } with
      | (.error e, s1) => ((.error e, s1) : Except Exc (List ℝ) × MIInner D G)
      | (.ok vs, s1) => (.ok vs, { s1 with data := s1.orig.getD s1.data })).1 = .ok vs →
        vs.length = n ∧ (match miLoop comp rs n { s with orig := some s.data } with
      | (.error e, s1) => ((.error e, s1) : Except Exc (List ℝ) × MIInner D G)
      | (.ok vs, s1) => (.ok vs, { s1 with data := s1.orig.getD s1.data })).2.data = s.data) := by
    intro rs
    have ho := miLoop_orig comp rs n { s with orig := some s.data }
    have hl := miLoop_length comp rs n { s with orig := some s.data }
    cases hm : miLoop comp rs n { s with orig := some s.data } with
    | mk r s1 =>
      rw [hm] at ho hl
      cases r with
      | error e => exact ⟨ho, fun vs h => by cases h⟩
      | ok ws =>
        refine ⟨ho, fun vs h => ?_⟩
        cases h
        exact ⟨hl ws rfl, by
          simp only at ho ⊢; rw [ho]; rfl⟩
  unfold testMI
  by_cases h1 : m = "permutation_test"
  · simp only [h1, if_true]
    exact ⟨(key R.permute).1, fun vs h => ⟨((key R.permute).2 vs h).1, ((key R.permute).2 vs h).2, Or.inl trivial⟩⟩
  · simp only [h1, if_false]
    by_cases h2 : m = "bootstrap"
    · simp only [h2, if_true]
      exact ⟨(key R.choice).1, fun vs h => ⟨((key R.choice).2 vs h).1, ((key R.choice).2 vs h).2, Or.inr trivial⟩⟩
    · simp only [h2, if_false]
      exact ⟨trivial, fun vs h => by cases h⟩

theorem testArgs_ok {cfg : Settings} {nT : Option PyArg} {m : Option String} {n : Int} {m' : String}
    (h : testArgs cfg nT m = .ok (n, m')) : 1 ≤ n := by
  unfold testArgs at h
  cases h1 : nTestsArg cfg nT with
  | error e => rw [h1] at h; cases h
  | ok v =>
    cases h2 : methodArg cfg m with
    | error e => rw [h1, h2] at h; cases h
    | ok w =>
      rw [h1, h2] at h
      simp only [bind, Except.bind, pure, Except.pure] at h
      split_ifs at h with hp
      cases h
      cases v <;> simp_all [PyArg.posInt, PyArg.val] <;> omega

/-- what `_statistical_test` does to the object -/
theorem statTestMI_spec (comp : MICalc D G) (R : Resampler D G) (cfg : Settings) (nT : Option PyArg)
    (m : Option String) (s : MIInner D G) :
    (∀ n m' vs, (statTestMI comp R cfg nT m s).1 = .ok (n, m', vs) →
      1 ≤ n ∧ (vs.length : Int) = n ∧ (m' = "permutation_test" ∨ m' = "bootstrap") ∧
      s.data.length = 2 ∧ testArgs cfg nT m = .ok (n, m') ∧
      (statTestMI comp R cfg nT m s).2.data = s.data) ∧
    ((statTestMI comp R cfg nT m s).2.data = s.data ∨
      ∃ x y x' e, s.data = [x, y] ∧ (statTestMI comp R cfg nT m s).2.data = [x', y] ∧
        (statTestMI comp R cfg nT m s).1 = .error e) := by
  unfold statTestMI
  cases ha : testArgs cfg nT m with
  | error e => exact ⟨fun n m' vs h => (by cases h), Or.inl rfl⟩
  | ok p =>
    obtain ⟨n, m'⟩ := p
    have hn := testArgs_ok ha
    simp only
    by_cases hl : s.data.length = 2
    · simp only [ne_eq, hl, not_true_eq_false, if_false]
      have hs := testMI_spec comp R n.toNat m' s
      cases ht : testMI comp R n.toNat m' s with
      | mk r s1 =>
        rw [ht] at hs
        cases r with
        | error e =>
          refine ⟨fun n m' vs h => (by cases h), ?_⟩
          simp only
          obtain ⟨x, y, hxy⟩ : ∃ x y, s.data = [x, y] := by
            match hd : s.data, hl with
            | [x, y], _ => exact ⟨x, y, rfl⟩
          unfold testMI at ht
          have key : ∀ rs, (match miLoop comp rs n.toNat { s with orig := some s.data } with
              | (.error e, s1) => ((.error e, s1) : Except Exc (List ℝ) × MIInner D G)
              | (.ok vs, s1) => (.ok vs, { s1 with data := s1.orig.getD s1.data })) = (.error e, s1) →
              s1.data = s.data ∨ ∃ x', s1.data = [x', y] := by
            intro rs h
            have hd := miLoop_data comp rs n.toNat { s with orig := some s.data } x y (by simp [hxy])
            cases hm : miLoop comp rs n.toNat { s with orig := some s.data } with
            | mk r s2 =>
              rw [hm] at h hd
              cases r with
              | error e2 =>
                cases h
                rcases hd with ⟨hd, -⟩ | hd
                · exact Or.inl hd
                · exact Or.inr hd
              | ok ws => cases h
          have : s1.data = s.data ∨ ∃ x', s1.data = [x', y] := by
            by_cases h1 : m' = "permutation_test"
            · simp only [h1, if_true] at ht; exact key _ ht
            · simp only [h1, if_false] at ht
              by_cases h2 : m' = "bootstrap"
              · simp only [h2, if_true] at ht; exact key _ ht
              · simp only [h2, if_false] at ht
                cases ht; exact Or.inl rfl
          rcases this with h | ⟨x', h⟩
          · exact Or.inl h
          · exact Or.inr ⟨x, y, x', e, hxy, h, rfl⟩
        | ok ws =>
          obtain ⟨-, h2⟩ := hs
          obtain ⟨h3, h4, h5⟩ := h2 ws rfl
          refine ⟨fun n2 m2 vs h => ?_, Or.inl h4⟩
          cases h
          refine ⟨hn, ?_, h5, trivial, rfl, h4⟩
          rw [h3]; omega
    · simp only [ne_eq, hl, not_false_eq_true, if_true]
      exact ⟨fun n m' vs h => (by cases h), Or.inl trivial⟩

end MI

section TE
variable {G : Type}

theorem teLoop_flags (comp : TECalc G) (n : Nat) (s : TEInner G) :
    (teLoop comp n s).2.flags = s.flags := by
  induction n generalizing s with
  | zero => rfl
  | succ n ih =>
    unfold teLoop
    split
    · rfl
    · rename_i v g _
      have h2 := ih { s with rng := g }
      split
      · rename_i hl; rw [hl] at h2; exact h2
      · rename_i hl; rw [hl] at h2; exact h2

theorem teLoop_length (comp : TECalc G) (n : Nat) (s : TEInner G) (vs : List (CalcRes ℝ))
    (h : (teLoop comp n s).1 = .ok vs) : vs.length = n := by
  induction n generalizing s vs with
  | zero => cases h; rfl
  | succ n ih =>
    unfold teLoop at h
    split at h
    · cases h
    · split at h
      · cases h
      · rename_i g _ _ ws s2 hl
        cases h
        simp [ih _ ws (by rw [hl])]

theorem mapM_length {α β : Type} {f : α → Except Exc β} : ∀ {l : List α} {r : List β},
    l.mapM f = .ok r → r.length = l.length := by
  intro l
  induction l with
  | nil => intro r h; cases h; rfl
  | cons a l ih =>
    intro r h
    rw [List.mapM_cons] at h
    simp only [bind, Except.bind] at h
    split at h
    · cases h
    · split at h
      · cases h
      · rename_i hm
        cases h
        simp [ih hm]

theorem testTE_spec (comp : TECalc G) (n : Nat) (m : String) (s : TEInner G) :
    (∀ vs, (testTE comp n m s).1 = .ok vs →
      vs.length = n ∧ (testTE comp n m s).2.flags = {} ∧ (methodFlags m).isSome) ∧
    (∀ e, (testTE comp n m s).1 = .error e →
      (testTE comp n m s).2 = s ∧ methodFlags m = none ∨
      ∃ f, methodFlags m = some f ∧ (testTE comp n m s).2.flags = f) := by
  unfold testTE
  cases hf : methodFlags m with
  | none => exact ⟨fun vs h => (by cases h), fun e _ => Or.inl ⟨rfl, rfl⟩⟩
  | some f =>
    simp only
    have h1 := teLoop_flags comp n { s with flags := f }
    have h2 := teLoop_length comp n { s with flags := f }
    cases hm : teLoop comp n { s with flags := f } with
    | mk r s1 =>
      rw [hm] at h1 h2
      cases r with
      | error e => exact ⟨fun vs h => (by cases h), fun _ _ => Or.inr ⟨f, rfl, h1⟩⟩
      | ok rs =>
        simp only
        cases hv : rs.mapM testValue with
        | error e => exact ⟨fun vs h => (by cases h), fun _ _ => Or.inr ⟨f, rfl, h1⟩⟩
        | ok vs =>
          refine ⟨fun ws h => ?_, fun e h => by cases h⟩
          cases h
          exact ⟨by rw [mapM_length hv, h2 rs rfl], rfl, rfl⟩

theorem statTestTE_spec (comp : TECalc G) (cfg : Settings) (nT : Option PyArg) (m : Option String)
    (s : TEInner G) :
    (∀ n m' vs, (statTestTE comp cfg nT m s).1 = .ok (n, m', vs) →
      1 ≤ n ∧ (vs.length : Int) = n ∧ (methodFlags m').isSome ∧ testArgs cfg nT m = .ok (n, m') ∧
      (statTestTE comp cfg nT m s).2.flags = {}) ∧
    (∀ e, (statTestTE comp cfg nT m s).1 = .error e →
      (statTestTE comp cfg nT m s).2 = s ∨
      ∃ n m' f, testArgs cfg nT m = .ok (n, m') ∧ methodFlags m' = some f ∧
        (statTestTE comp cfg nT m s).2.flags = f) := by
  unfold statTestTE
  cases ha : testArgs cfg nT m with
  | error e => exact ⟨fun n m' vs h => (by cases h), fun _ _ => Or.inl rfl⟩
  | ok p =>
    obtain ⟨n, m'⟩ := p
    have hn := testArgs_ok ha
    simp only
    have hs := testTE_spec comp n.toNat m' s
    cases ht : testTE comp n.toNat m' s with
    | mk r s1 =>
      rw [ht] at hs
      cases r with
      | error e =>
        refine ⟨fun n m' vs h => (by cases h), fun e' h => ?_⟩
        rcases hs.2 e rfl with ⟨h1, -⟩ | ⟨f, h1, h2⟩
        · exact Or.inl h1
        · exact Or.inr ⟨n, m', f, rfl, h1, h2⟩
      | ok ws =>
        obtain ⟨h3, h4, h5⟩ := hs.1 ws rfl
        refine ⟨fun n2 m2 vs h => ?_, fun e h => by cases h⟩
        cases h
        refine ⟨hn, ?_, h5, rfl, h4⟩
        rw [h3]; omega

end TE

end Verif
