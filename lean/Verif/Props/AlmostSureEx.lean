import Verif.Props.AlmostSureIid
import Verif.Props.EndToEndEx
import Mathlib.Probability.Independence.InfinitePi
import Mathlib.Probability.Distributions.Uniform

/-!
# C94: concrete random sequences that meet the hypotheses
-/

namespace Verif

open Spec MeasureTheory ProbabilityTheory

/-- a fair coin -/
noncomputable def asCoin : Measure Bool := (PMF.uniformOfFintype Bool).toMeasure

instance : IsProbabilityMeasure asCoin := by unfold asCoin; infer_instance

/-- the number shown by a coin -/
def asFace (c : Bool) : Int := if c then 1 else 0

/-- functions of independent repetitions of an experiment -/
theorem asEx_iid {E : Type} [MeasurableSpace E] (P : Measure E) [IsProbabilityMeasure P] {α : Type} [MeasurableSpace α] (g : E → α) (hg : Measurable g)
    (S : Finset α) (hS : ∀ e, g e ∈ S) : Iid (Measure.infinitePi (fun _ : ℕ => P)) (fun i ω => g (ω i)) S where
  measurable i := hg.comp (measurable_pi_apply i)
  mem i := Filter.Eventually.of_forall fun ω => hS _
  indep := iIndepFun_infinitePi (fun _ => hg)
  same i := ⟨(hg.comp (measurable_pi_apply i)).aemeasurable, (hg.comp (measurable_pi_apply 0)).aemeasurable, by
    rw [← Function.comp_def (f := g) (g := fun ω : ℕ → E => ω i), ← Function.comp_def (f := g) (g := fun ω : ℕ → E => ω 0),
      ← Measure.map_map hg (measurable_pi_apply i), ← Measure.map_map hg (measurable_pi_apply 0)]
    congr 1
    exact (Measure.infinitePi_map_eval (fun _ : ℕ => P) i).trans (Measure.infinitePi_map_eval (fun _ : ℕ => P) 0).symm⟩

/-- repeated tosses of a coin -/
noncomputable abbrev asTosses : Measure (ℕ → Bool) := Measure.infinitePi (fun _ => asCoin)

theorem asEx_coin : Iid asTosses (fun i ω => asFace (ω i)) {0, 1} :=
  asEx_iid _ asFace (measurable_of_countable _) _ (by intro e; cases e <;> simp [asFace])

example := C94_entropy_iid .millerMadow (by simp [simpleFams]) (b := .num 2) (call "MM", [("base", .int 2)]) (by norm_num [Base.Std]) asEx_coin
example := C94_entropy .shrink (by simp [simpleFams]) (b := .e) (call "shrink", []) trivial one_pos (C94_iid asEx_coin)
example := C94_entropy_bayes (b := .e) (call "bayes", [("alpha", .num (1 / 2))]) trivial (.num (1 / 2)) (.bayesNum (by norm_num)) (by kw) (by kw) one_pos
  (C94_iid asEx_coin)

/-- tosses of two coins -/
noncomputable abbrev asPairs : Measure (ℕ → Bool × Bool) := Measure.infinitePi (fun _ => asCoin.prod asCoin)

theorem asEx_pairs : Iid asPairs (fun i ω => (asFace (ω i).1, asFace (ω i).2)) (({0, 1} : Finset Int) ×ˢ ({0, 1} : Finset Int)) :=
  asEx_iid _ (fun e : Bool × Bool => (asFace e.1, asFace e.2)) (measurable_of_countable _) _ (by
    rintro ⟨c, d⟩; cases c <;> cases d <;> simp [asFace])

theorem asEx_indep : IndepFun (fun ω : ℕ → Bool × Bool => asFace (ω 0).1) (fun ω => asFace (ω 0).2) asPairs := by
  have h := indepFun_prod (μ := asCoin) (ν := asCoin) (X := asFace) (Y := asFace) (measurable_of_countable _) (measurable_of_countable _)
  rw [indepFun_iff_measure_inter_preimage_eq_mul] at h ⊢
  intro s t hs ht
  have e : ∀ A : Set (Bool × Bool), asPairs ((fun ω => ω 0) ⁻¹' A) = (asCoin.prod asCoin) A := fun A => by
    rw [← Measure.map_apply (measurable_pi_apply 0) (Set.to_countable A).measurableSet]
    congr 1
    exact Measure.infinitePi_map_eval (fun _ : ℕ => asCoin.prod asCoin) 0
  have := h s t hs ht
  rw [← e, ← e, ← e] at this
  exact this

example := C94_mi (.free .zhang) (b := .e) (cond := .absent) (call "zhang", []) trivial rfl ⟨by kw, by kw⟩ one_pos (C94_iid asEx_pairs)
example := C94_mi_plugin (b := .e) (cond := .absent) (call "discrete", []) trivial rfl (by kw) one_pos (C94_iid asEx_pairs)
example := C94_mi_zero (.free .zhang) (b := .e) (cond := .absent) (call "zhang", []) trivial rfl ⟨by kw, by kw⟩ asEx_pairs asEx_indep
example := C94_te_zero (.free .bonachela) (b := .e) (cond := .absent) (call "bonachela", [("src_hist_len", .int 2)]) trivial rfl demoHistory (by norm_num)
  (by norm_num) (by norm_num) asEx_pairs

/-- tosses of three coins -/
noncomputable abbrev asTriples : Measure (ℕ → Bool × Bool × Bool) := Measure.infinitePi (fun _ => asCoin.prod (asCoin.prod asCoin))

theorem asEx_triples : Iid asTriples (fun i ω => (asFace (ω i).1, asFace (ω i).2.1, asFace (ω i).2.2))
    (({0, 1} : Finset Int) ×ˢ (({0, 1} : Finset Int) ×ˢ ({0, 1} : Finset Int))) :=
  asEx_iid _ (fun e : Bool × Bool × Bool => (asFace e.1, asFace e.2.1, asFace e.2.2)) (measurable_of_countable _) _ (by
    rintro ⟨c, d, e⟩; cases c <;> cases d <;> cases e <;> simp [asFace])

example := C94_cmi (.bayes (.bayesNum (a := 1) (by norm_num)) (by kw) (by kw)) (b := .e) (call "bayes", [("alpha", .num 1)]) trivial ⟨by kw, by kw⟩ one_pos
  (C94_iid asEx_triples)
example := C94_cmi_plugin (b := .e) (call "discrete", []) trivial (by kw) one_pos (C94_iid asEx_triples)

/-! ### a source and its delayed copy -/

/-- the windows of the source `X i = C (i+1)` and the target `Y i = C i`, which repeats the source one step later -/
def asCopyWindow (v : Fin 2 → Int) : List Int × List Int × List Int := ([v 1], [v 1], [v 0])

/-- the possible windows -/
def asCopyWindows : Finset (List Int × List Int × List Int) :=
  {([0], [0], [0]), ([0], [0], [1]), ([1], [1], [0]), ([1], [1], [1])}

theorem asEx_copy : Sampling asTosses (teWindow (fun i ω => asFace (ω (i + 1))) (fun i ω => asFace (ω i)) 1 1 1) asCopyWindows
    (fun w => asTosses.real {ω | asCopyWindow (fun t => asFace (ω ((0 + t) * 1))) = w}) 2 := by
  have h := iid_sampling asEx_coin (m := 1) (s := 1) one_pos asCopyWindow (fun w => (Set.to_countable _).measurableSet) (T := asCopyWindows) (by
    intro v hv
    have h0 := hv 0
    have h1 := hv 1
    simp only [Finset.mem_insert, Finset.mem_singleton] at h0 h1
    rcases h0 with h0 | h0 <;> rcases h1 with h1 | h1 <;> simp [asCopyWindow, asCopyWindows, h0, h1])
  have e : teWindow (fun i (ω : ℕ → Bool) => asFace (ω (i + 1))) (fun i ω => asFace (ω i)) 1 1 1 =
      fun i ω => asCopyWindow (fun t => asFace (ω ((i + t) * 1))) := by
    funext i ω
    simp [teWindow, asCopyWindow, Nat.add_comm]
  rw [e]
  exact h

example := C94_te (.free .bonachela) (b := .e) (cond := .absent) (l := 1) (k := 1) (s := 1) (call "bonachela", []) trivial rfl
  ⟨by kw, by kw, by kw, by kw, by kw⟩ one_pos one_pos one_pos two_pos asEx_copy
example := C94_te_plugin (b := .e) (cond := .absent) (l := 1) (k := 1) (s := 1) (call "discrete", []) trivial rfl
  ⟨by kw, by kw, by kw, by kw, by kw⟩ one_pos one_pos one_pos two_pos asEx_copy

theorem asEx_half (c : Bool) : asTosses.real {ω | asFace (ω 0) = asFace c} = 1 / 2 := by
  have e : {ω : ℕ → Bool | asFace (ω 0) = asFace c} = (fun ω => ω 0) ⁻¹' {c} := by
    ext ω
    cases c <;> cases h : ω 0 <;> simp [asFace, h]
  rw [e, measureReal_def, ← Measure.map_apply (measurable_pi_apply 0) (measurableSet_singleton c)]
  have : asTosses.map (fun ω : ℕ → Bool => ω 0) = asCoin := Measure.infinitePi_map_eval (fun _ : ℕ => asCoin) 0
  rw [this, asCoin, PMF.toMeasure_apply_singleton _ _ (measurableSet_singleton c)]
  simp

theorem asEx_quarter (c d : Bool) :
    asTosses.real {ω | asCopyWindow (fun t => asFace (ω ((0 + t) * 1))) = ([asFace d], [asFace d], [asFace c])} = 1 / 4 := by
  have h := (C94_iid asEx_coin).indep 0 1 le_rfl (asFace c) (by cases c <;> simp [asFace]) (asFace d) (by cases d <;> simp [asFace])
  rw [asEx_half, asEx_half] at h
  have e : {ω : ℕ → Bool | asCopyWindow (fun t => asFace (ω ((0 + t) * 1))) = ([asFace d], [asFace d], [asFace c])} =
      {ω | asFace (ω 0) = asFace c ∧ asFace (ω 1) = asFace d} := by
    ext ω
    simp [asCopyWindow, and_comm]
  rw [e, h]
  norm_num

/-- the transfer entropy from a fair coin to its delayed copy is one bit -/
theorem asEx_copy_value : tripleInfo asCopyWindows (fun w => asTosses.real {ω | asCopyWindow (fun t => asFace (ω ((0 + t) * 1))) = w}) = Real.log 2 := by
  have q : ∀ w ∈ asCopyWindows, asTosses.real {ω | asCopyWindow (fun t => asFace (ω ((0 + t) * 1))) = w} = 1 / 4 := by
    intro w hw
    simp only [asCopyWindows, Finset.mem_insert, Finset.mem_singleton] at hw
    rcases hw with rfl | rfl | rfl | rfl
    · exact asEx_quarter false false
    · exact asEx_quarter true false
    · exact asEx_quarter false true
    · exact asEx_quarter true true
  have m : ∀ {β : Type} [DecidableEq β] (f : List Int × List Int × List Int → β) (b : β),
      iid_marg asCopyWindows (fun w => asTosses.real {ω | asCopyWindow (fun t => asFace (ω ((0 + t) * 1))) = w}) f b =
        (asCopyWindows.filter (fun w => f w = b)).card * (1 / 4) := fun f b => by
    unfold iid_marg
    rw [Finset.sum_congr rfl fun w hw => q w (Finset.mem_filter.1 hw).1, Finset.sum_const, nsmul_eq_mul]
  have c1 : ∀ w ∈ asCopyWindows, (asCopyWindows.filter (fun v => (v.1, v.2.2) = (w.1, w.2.2))).card = 1 := by decide +kernel
  have c2 : ∀ w ∈ asCopyWindows, (asCopyWindows.filter (fun v => v.2 = w.2)).card = 1 := by decide +kernel
  have c3 : ∀ w ∈ asCopyWindows, (asCopyWindows.filter (fun v => v.2.2 = w.2.2)).card = 2 := by decide +kernel
  have c : asCopyWindows.card = 4 := by decide +kernel
  have sh : ∀ {β : Type} [DecidableEq β] (f : List Int × List Int × List Int → β) (k : ℕ),
      (∀ w ∈ asCopyWindows, (asCopyWindows.filter (fun v => f v = f w)).card = k) →
      shannonOf asCopyWindows (fun w => asTosses.real {ω | asCopyWindow (fun t => asFace (ω ((0 + t) * 1))) = w}) f = -Real.log (k * (1 / 4)) := by
    intro β _ f k hk
    have : ∀ w ∈ asCopyWindows, asTosses.real {ω | asCopyWindow (fun t => asFace (ω ((0 + t) * 1))) = w} *
        Real.log (iid_marg asCopyWindows (fun w => asTosses.real {ω | asCopyWindow (fun t => asFace (ω ((0 + t) * 1))) = w}) f (f w)) =
        1 / 4 * Real.log (k * (1 / 4)) := fun w hw => by rw [m, q w hw, hk w hw]
    rw [iid_shannonOf, Finset.sum_congr rfl this, Finset.sum_const, c, nsmul_eq_mul]
    push_cast
    ring
  have c0 : ∀ w ∈ asCopyWindows, (asCopyWindows.filter (fun v => v = w)).card = 1 := by decide +kernel
  unfold tripleInfo
  rw [← shannonOf_id, sh _ 1 c1, sh _ 1 c2, sh _ 1 c0, sh _ 2 c3]
  have e1 : Real.log ((1 : ℕ) * (1 / 4)) = -(2 * Real.log 2) := by
    rw [Nat.cast_one, one_mul, one_div, Real.log_inv, show (4 : ℝ) = 2 ^ 2 by norm_num, Real.log_pow]; norm_num
  have e2 : Real.log ((2 : ℕ) * (1 / 4)) = -Real.log 2 := by
    rw [← Real.log_inv]; norm_num
  rw [e1, e2]
  ring

/-- so `im.transfer_entropy(coin, delayed copy, approach="bonachela", base=2)` converges almost surely to 1 -/
example : ∀ᵐ ω ∂asTosses, ∃ v : ℕ → ℝ, (∀ n, max 1 1 * 1 < n →
      imTE demo [.ints (observed (fun i ω => asFace (ω (i + 1))) n ω), .ints (observed (fun i ω => asFace (ω i)) n ω)] (.str "bonachela") .absent
        (kwList [("base", .int 2)]) = .ok (v n)) ∧
      Filter.Tendsto v Filter.atTop (nhds 1) := by
  have h := C94_te (.free .bonachela) (b := .num 2) (cond := .absent) (l := 1) (k := 1) (s := 1) (call "bonachela", [("base", .int 2)])
    (by norm_num [Base.Std]) rfl ⟨by kw, by kw, by kw, by kw, by kw⟩ one_pos one_pos one_pos two_pos asEx_copy
  rw [asEx_copy_value] at h
  have : Real.log 2 / (Base.num 2).ln = 1 := by
    rw [show (Base.num 2).ln = Real.log 2 from rfl]
    exact div_self (Real.log_pos (by norm_num)).ne'
  rwa [this] at h

/-- the same with a third, independent, coin as condition -/
def asCondWindow (v : Fin 2 → Int × Int × Int) : List Int × List Int × List Int × List Int := ([(v 1).2.1], [(v 0).1], [(v 0).2.1], [(v 0).2.2])

theorem asEx_cond : ∃ T p, Sampling asTriples (cteWindow (fun i ω => asFace (ω i).1) (fun i ω => asFace (ω i).2.1) (fun i ω => asFace (ω i).2.2) 1 1 1 1) T p 2 := by
  have h := iid_sampling asEx_triples (m := 1) (s := 1) one_pos asCondWindow (fun w => (Set.to_countable _).measurableSet)
    (T := (({0, 1} : Finset Int).image (fun y => [y])) ×ˢ ((({0, 1} : Finset Int).image (fun y => [y])) ×ˢ
      ((({0, 1} : Finset Int).image (fun y => [y])) ×ˢ (({0, 1} : Finset Int).image (fun y => [y]))))) (by
    intro v hv
    have h0 := hv 0
    have h1 := hv 1
    simp only [Finset.mem_product] at h0 h1
    simp only [asCondWindow, Finset.mem_product]
    exact ⟨Finset.mem_image_of_mem _ h1.2.1, Finset.mem_image_of_mem _ h0.1, Finset.mem_image_of_mem _ h0.2.1, Finset.mem_image_of_mem _ h0.2.2⟩)
  have e : cteWindow (fun i (ω : ℕ → Bool × Bool × Bool) => asFace (ω i).1) (fun i ω => asFace (ω i).2.1) (fun i ω => asFace (ω i).2.2) 1 1 1 1 =
      fun i ω => asCondWindow (fun t => (asFace (ω ((i + t) * 1)).1, asFace (ω ((i + t) * 1)).2.1, asFace (ω ((i + t) * 1)).2.2)) := by
    funext i ω
    simp [cteWindow, asCondWindow, Nat.add_comm]
  rw [e]
  exact ⟨_, _, h⟩

example : True := by
  obtain ⟨T, p, h⟩ := asEx_cond
  have := C94_cte (.free .zhang) (b := .e) (l := 1) (k := 1) (s := 1) (c := 1) (call "zhang", []) trivial
    ⟨by kw, by kw, by kw, by kw, by kw⟩ (by kw) one_pos one_pos one_pos one_pos two_pos h
  have := C94_cte_plugin (b := .e) (l := 1) (k := 1) (s := 1) (c := 1) (call "discrete", []) trivial
    ⟨by kw, by kw, by kw, by kw, by kw⟩ (by kw) one_pos one_pos one_pos one_pos two_pos h
  trivial

end Verif
