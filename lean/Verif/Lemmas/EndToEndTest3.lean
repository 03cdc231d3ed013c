import Verif.Lemmas.EndToEndTest2
import Verif.Props.StatTest4

/-!
# Statistical tests end to end: the report
-/

namespace Verif

open Spec

section
variable {G D : Type} {E : TestEnv G} {W : World} {nT : Option PyArg} {m : Option String} {g : G}

theorem testArgs_known {cfg : Settings} {n : Int} {mth : String} (_ : testArgs cfg nT m = .ok (n, mth)) : 1 ≤ n := testArgs_ok ‹_›

/-- the rounds of a test of an object with data of type `D` -/
def dRounds (rs : D → G → D × G) (next : G → G) (x : D) : Nat → G → List (D × G)
  | 0, _ => []
  | k + 1, g => rs x g :: dRounds rs next x k (next (rs x g).2)

/-- the state after these rounds -/
def dAfter (rs : D → G → D × G) (next : G → G) (x : D) : Nat → G → G
  | 0, g => g
  | k + 1, g => dAfter rs next x k (next (rs x g).2)

theorem mi_loop_eq {comp : MICalc D G} (f : World → List D → Except Exc ℝ)
    (hc : ∀ d g, comp d g = ((f (W.withDraw (E.normal g)) d).map CalcRes.scalar, E.next g))
    (rs : D → G → D × G) (x y : D) (n : Nat) (s : MIInner D G) (ho : s.orig = some [x, y]) :
    (miLoop comp rs n s).1 = (dRounds rs E.next x n s.rng).mapM (fun d => f (W.withDraw (E.normal d.2)) [d.1, y]) ∧
    ((∃ vs, (dRounds rs E.next x n s.rng).mapM (fun d => f (W.withDraw (E.normal d.2)) [d.1, y]) = .ok vs) →
      (miLoop comp rs n s).2.rng = dAfter rs E.next x n s.rng ∧ (miLoop comp rs n s).2.orig = some [x, y]) := by
  induction n generalizing s with
  | zero => exact ⟨rfl, fun _ => ⟨rfl, ho⟩⟩
  | succ n ih =>
    simp only [dRounds, List.mapM_cons, miLoop, miSelection, ho, bind, Except.bind, hc]
    cases hf : f (W.withDraw (E.normal (rs x s.rng).2)) [(rs x s.rng).1, y] with
    | error e => exact ⟨rfl, fun ⟨_, h⟩ => by cases h⟩
    | ok v =>
      simp only [Except.map, testValue]
      obtain ⟨h1, h2⟩ := ih { data := [(rs x s.rng).1, y], orig := some [x, y], rng := E.next (rs x s.rng).2 } rfl
      simp only at h1 h2
      cases hl : miLoop comp rs n { data := [(rs x s.rng).1, y], orig := some [x, y], rng := E.next (rs x s.rng).2 } with
      | mk q s2 =>
        rw [hl] at h1 h2
        simp only at h1 h2
        rw [← h1] at h2 ⊢
        cases q with
        | error e => exact ⟨rfl, fun ⟨_, h⟩ => by cases h⟩
        | ok vs => exact ⟨rfl, fun _ => h2 ⟨vs, rfl⟩⟩

/-- a test of an object of two variables, as a computation -/
theorem run_mi_eq (R : Resampler D G) (x y : D) (f : World → List D → Except Exc ℝ) :
    runMITest E W nT m g R [x, y] f = (do
      let a ← testArgs E.cfg nT m
      if KnownMethod a.2 then do
        let vs ← (dRounds (R.ofMethod a.2) E.next x a.1.toNat g).mapM (fun d => f (W.withDraw (E.normal d.2)) [d.1, y])
        let obs ← f (W.withDraw (E.normal (dAfter (R.ofMethod a.2) E.next x a.1.toNat g))) [x, y]
        statResult obs vs a.1 a.2
      else .error .valueError) := by
  unfold runMITest statisticalTestMI statTestMI
  cases ha : testArgs E.cfg nT m with
  | error e => rfl
  | ok a =>
    obtain ⟨n, mth⟩ := a
    simp only [bind, Except.bind, List.length_cons, List.length_nil, ne_eq, not_true_eq_false, if_false, testMI]
    obtain ⟨h1, h2⟩ := mi_loop_eq (E := E) (W := W) f
      (comp := fun d g => ((f (W.withDraw (E.normal g)) d).map CalcRes.scalar, E.next g)) (fun d g => rfl)
      (R.ofMethod mth) x y n.toNat ({ data := [x, y], orig := some [x, y], rng := g } : MIInner D G) rfl
    simp only at h1 h2
    by_cases hk : KnownMethod mth
    · rw [if_pos hk]
      cases hl : miLoop (fun d g => ((f (W.withDraw (E.normal g)) d).map CalcRes.scalar, E.next g)) (R.ofMethod mth) n.toNat
          ({ data := [x, y], orig := some [x, y], rng := g } : MIInner D G) with
      | mk q s2 =>
        rw [hl] at h1 h2
        simp only at h1 h2
        rw [← h1] at h2 ⊢
        rcases hk with hk | hk
        · subst hk
          rw [show R.ofMethod "permutation_test" = R.permute from if_pos rfl] at hl h2 ⊢
          simp only [if_true, hl]
          cases q with
          | error e => rfl
          | ok vs =>
            obtain ⟨e1, e2⟩ := h2 ⟨vs, rfl⟩
            simp only [EstObj.globalVal, EstObj.calculate, miCode, e1, e2, Option.getD_some]
            cases f (W.withDraw (E.normal (dAfter R.permute E.next x n.toNat g))) [x, y] with
            | error e => rfl
            | ok v => rfl
        · subst hk
          rw [show R.ofMethod "bootstrap" = R.choice from if_neg (by decide)] at hl h2 ⊢
          simp only [if_true, hl, show ¬ ("bootstrap" = "permutation_test") from by decide, if_false]
          cases q with
          | error e => rfl
          | ok vs =>
            obtain ⟨e1, e2⟩ := h2 ⟨vs, rfl⟩
            simp only [EstObj.globalVal, EstObj.calculate, miCode, e1, e2, Option.getD_some]
            cases f (W.withDraw (E.normal (dAfter R.choice E.next x n.toNat g))) [x, y] with
            | error e => rfl
            | ok v => rfl
    · have hp : ¬ mth = "permutation_test" := fun h => hk (.inl h)
      have hq : ¬ mth = "bootstrap" := fun h => hk (.inr h)
      rw [if_neg hk, if_neg hp, if_neg hq]

/-! ### Resampled rows -/

/-- the rows drawn by a method -/
def NpRng.rows (R : NpRng G) (mth : String) (n : Nat) (g : G) : List Nat :=
  if mth = "permutation_test" then (R.perm n g).1 else (R.choice n g).1

theorem NpRng.rows_lt (R : NpRng G) (mth : String) (n : Nat) (g : G) : ∀ i ∈ R.rows mth n g, i < n := by
  intro i hi
  unfold NpRng.rows at hi
  split_ifs at hi
  · exact List.mem_range.1 ((R.perm_spec n g).mem_iff.1 hi)
  · exact R.choice_lt _ _ _ hi

theorem NpRng.rows_length (R : NpRng G) (mth : String) (n : Nat) (g : G) : (R.rows mth n g).length = n := by
  unfold NpRng.rows
  split_ifs
  · simpa using (R.perm_spec n g).length_eq
  · exact R.choice_len _ _

theorem resampler_rows {α : Type} [Inhabited α] (R : NpRng G) (mth : String) (x : List α) (g : G) :
    ((R.resampler (α := α)).ofMethod mth x g).1 = selectRows x (R.rows mth x.length g) := by
  unfold Resampler.ofMethod NpRng.rows NpRng.resampler
  split_ifs <;> rfl

theorem arrResampler_rows (R : NpRng G) (mth : String) (x : KVar) (g : G) :
    (R.arrResampler.ofMethod mth x g).1 = x.sel (R.rows mth x.len g) := by
  unfold Resampler.ofMethod NpRng.rows NpRng.arrResampler
  split_ifs <;> rfl

/-- a resampling of some of the rows -/
theorem resampled_rows (R : NpRng G) (mth : String) (kept : List Nat) (g : G) :
    Resampled mth kept (selectRows kept (R.rows mth kept.length g)) := by
  rw [← resampler_rows]
  exact resampled_ofMethod R mth kept g

end

end Verif
