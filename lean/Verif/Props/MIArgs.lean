import Verif.Props.TE3
import Verif.Props.Bias
import Verif.Props.Nsb
import Verif.Props.OrdinalMI2
import Verif.Props.KernelMI2
import Verif.Props.KernelCMI
import Verif.Props.ExpMI2

/-!
# C74: mutual information accepts exactly the valid calls

`miInit`, `kmiInit`, `cmiInit`, `kcmiInit` are the constructors; here is what a caller sees: for which variables, conditions and
offsets there is a value, and which exception there is otherwise.
-/

namespace Verif

/-- what makes a call of mutual information wrong whatever the estimator: fewer than two variables, variables of
different length, or an offset together with more than two variables (`lens` are the lengths of the variables) -/
def BadMI (lens : List Nat) (offset : Option Int) : Prop :=
  lens.length < 2 ∨ (∃ a ∈ lens, ∃ b ∈ lens, a ≠ b) ∨ (2 < lens.length ∧ ∃ o : Int, offset = some o ∧ o ≠ 0)

theorem badMI_all {β : Type} (len : β → Nat) (data : List β) (d : β) (h2 : ¬ data.length < 2) :
    (data.all (fun v => decide (len v = len (data.headD d))) = false) ↔ ∃ a ∈ data.map len, ∃ b ∈ data.map len, a ≠ b := by
  obtain ⟨x, r, rfl⟩ : ∃ x r, data = x :: r := by
    cases data with
    | nil => simp at h2
    | cons x r => exact ⟨x, r, rfl⟩
  rw [← Bool.not_eq_true, List.all_eq_true]
  simp only [List.headD_cons, List.mem_map]
  push Not
  constructor
  · rintro ⟨v, hv, hne⟩
    exact ⟨_, ⟨v, hv, rfl⟩, _, ⟨x, by simp, rfl⟩, fun h => hne (decide_eq_true h)⟩
  · rintro ⟨_, ⟨v, hv, rfl⟩, _, ⟨w, hw, rfl⟩, hne⟩
    by_cases h : len v = len x
    · exact ⟨w, hw, fun h' => hne (h.trans (of_decide_eq_true h').symm)⟩
    · exact ⟨v, hv, fun h' => h (of_decide_eq_true h')⟩

/-- the three checks of the constructor are the three disjuncts -/
theorem badMI_iff {β : Type} (len : β → Nat) (data : List β) (d : β) (offset : Option Int) :
    BadMI (data.map len) offset ↔ data.length < 2 ∨ (data.length > 2 ∧ ¬ (offset = some 0 ∨ offset = none)) ∨
      (¬ data.length < 2 ∧ data.all (fun v => decide (len v = len (data.headD d))) = false) := by
  unfold BadMI
  rw [List.length_map]
  by_cases h1 : data.length < 2
  · simp [h1]
  have ho : (∃ o : Int, offset = some o ∧ o ≠ 0) ↔ ¬ (offset = some 0 ∨ offset = none) := by
    rcases offset with _ | o
    · simp
    · simp
  rw [badMI_all len data d h1, ho, gt_iff_lt]
  simp only [h1, false_or, not_false_eq_true, true_and]
  exact or_comm

/-- the constructor of the discrete and ordinal estimators, for any element type -/
theorem C74_mi_constructor {α : Type} (data : List (List α)) (offset : Option Int) :
    (BadMI (data.map List.length) offset → miInit data offset = .error .valueError) ∧
    (¬ BadMI (data.map List.length) offset → offset = none → miInit data offset = .error .typeError) ∧
    (¬ BadMI (data.map List.length) offset → offset ≠ none → ∃ d, miInit data offset = .ok d) ∧
    (¬ BadMI (data.map List.length) offset → offset = some 0 → miInit data offset = .ok data) := by
  rw [badMI_iff List.length data [] offset]
  unfold miInit
  refine ⟨fun h => ?_, fun h ho => ?_, fun h ho => ?_, fun h ho => ?_⟩
  · split_ifs with h1 h2 h3
    · rfl
    · rfl
    · rfl
    · exact absurd h (by tauto)
  all_goals
    rw [if_neg (fun h1 => h (Or.inl h1)), if_neg (fun h1 => h (Or.inr (Or.inl h1))),
      if_neg (fun h1 => h (Or.inr (Or.inr ⟨fun h2 => h (Or.inl h2), h1⟩)))]
  · rw [ho]
  · obtain ⟨o, rfl⟩ := Option.ne_none_iff_exists'.1 ho
    simp only
    split_ifs <;> exact ⟨_, rfl⟩
  · rw [ho]; simp

example := (C74_mi_constructor [[5, 7, 5], [0, 0, 1]] (some 0)).2.2.2 (by simp [BadMI]) rfl
example := (C74_mi_constructor [[5, 7, 5], [0, 0]] (some 0)).1 (by simp [BadMI])

/-- the constructor of the kernel, KSG, Rényi and Tsallis estimators -/
theorem C74_kmi_constructor (data : List KVar) (offset : Option Int) (normalize : Bool) :
    (BadMI (data.map KVar.len) offset → kmiInit data offset normalize = .error .valueError) ∧
    (¬ BadMI (data.map KVar.len) offset → offset = none → kmiInit data offset normalize = .error .typeError) ∧
    (¬ BadMI (data.map KVar.len) offset → offset ≠ none → ∃ d, kmiInit data offset false = .ok d) ∧
    (¬ BadMI (data.map KVar.len) offset → offset = some 0 → kmiInit data offset false = .ok data) ∧
    (¬ BadMI (data.map KVar.len) offset → offset = some 0 → (∃ v ∈ data, v.is2d = true) →
      kmiInit data offset true = .error .valueError) := by
  rw [badMI_iff KVar.len data (.one []) offset]
  unfold kmiInit
  refine ⟨fun h => ?_, fun h ho => ?_, fun h ho => ?_, fun h ho => ?_, fun h ho h2d => ?_⟩
  · by_cases h1 : data.length < 2
    · rw [if_pos h1]; rfl
    rw [if_neg h1]
    by_cases h2 : data.length > 2 ∧ ¬ (offset = some 0 ∨ offset = none)
    · rw [if_pos h2]; rfl
    rw [if_neg h2]
    by_cases h3 : data.all (fun v => decide (v.len = (data.headD (.one [])).len)) = false
    · rw [if_pos h3]; rfl
    · exact absurd h (by tauto)
  all_goals
    rw [if_neg (fun h1 => h (Or.inl h1)), if_neg (fun h1 => h (Or.inr (Or.inl h1))),
      if_neg (fun h1 => h (Or.inr (Or.inr ⟨fun h2 => h (Or.inl h2), h1⟩)))]
  · rw [ho]; rfl
  · obtain ⟨o, rfl⟩ := Option.ne_none_iff_exists'.1 ho
    simp only [Bool.false_eq_true, if_false]
    split_ifs <;> exact ⟨_, rfl⟩
  · rw [ho]; simp [bind, Except.bind, pure, Except.pure]
  · rw [ho]
    have : data.any KVar.is2d = true := List.any_eq_true.2 h2d
    simp [bind, Except.bind, this]

example := (C74_kmi_constructor [.one [5, 7, 5], .two ⟨1, [[0], [0], [1]]⟩] (some 0) true).2.2.2.2 (by simp [BadMI, KVar.len]) rfl
  ⟨.two ⟨1, [[0], [0], [1]]⟩, by simp, rfl⟩

/-- **C74** Every mutual-information estimator raises ValueError for fewer than two variables, for variables of different
length and for an offset together with more than two variables; with `offset=None` everything else is a TypeError. -/
theorem C74_mi_rejects {α : Type} [LinearOrder α] [Inhabited α] (offset : Option Int) (b : Base) (e : Exc) :
    (∀ cols : List (List Int), ((BadMI (cols.map List.length) offset ∧ e = .valueError) ∨
        (¬ BadMI (cols.map List.length) offset ∧ offset = none ∧ e = .typeError)) →
      (∀ mm, discreteMI (.all1D cols) offset b mm = .error e) ∧
      (∀ mm, discreteMILocal cols offset b mm = .error e) ∧
      (∀ est, genericMI est cols offset = .error e) ∧
      (∀ c, biasMI c cols offset b = .error e) ∧
      (∀ find K, nsbMI find K cols offset b = .error e)) ∧
    (∀ cols : List (List (List Int)), ((BadMI (cols.map List.length) offset ∧ e = .valueError) ∨
        (¬ BadMI (cols.map List.length) offset ∧ offset = none ∧ e = .typeError)) →
      (∀ mm, discreteMI (.all2D cols) offset b mm = .error e)) ∧
    (∀ (q : Argsort α) (data : List (List α)) (p : OrdParams), ((BadMI (data.map List.length) offset ∧ e = .valueError) ∨
        (¬ BadMI (data.map List.length) offset ∧ offset = none ∧ e = .typeError)) →
      ordMI q data p offset b = .error e ∧ ordMILocal q data p offset b = .error e) ∧
    (∀ (data : List KVar) (normalize : Bool), ((BadMI (data.map KVar.len) offset ∧ e = .valueError) ∨
        (¬ BadMI (data.map KVar.len) offset ∧ offset = none ∧ e = .typeError)) →
      (∀ cfg, kernelMI data offset normalize cfg b = .error e ∧ kernelMILocal data offset normalize cfg b = .error e) ∧
      (∀ cfg noise, ksgMI data offset normalize cfg noise b = .error e ∧
        ksgMILocal data offset normalize cfg noise b = .error e) ∧
      (∀ val k order noise, expMI val data offset normalize k order noise b = .error e)) := by
  have I : ∀ {β : Type} (data : List (List β)), ((BadMI (data.map List.length) offset ∧ e = .valueError) ∨
        (¬ BadMI (data.map List.length) offset ∧ offset = none ∧ e = .typeError)) → miInit data offset = .error e := by
    rintro β data (⟨h, rfl⟩ | ⟨h, ho, rfl⟩)
    · exact (C74_mi_constructor data offset).1 h
    · exact (C74_mi_constructor data offset).2.1 h ho
  refine ⟨fun cols h => ?_, fun cols h mm => ?_, fun q data p h => ?_, fun data nrm h => ?_⟩
  · have := I cols h
    refine ⟨?_, ?_, ?_, ?_, ?_⟩ <;> intros <;>
      simp only [discreteMI, discreteMILocal, genericMI, biasMI, nsbMI, this, bind, Except.bind]
  · simp only [discreteMI, I cols h, bind, Except.bind]
  · constructor <;> simp only [ordMI, ordMILocal, ordMIInit, I data h, bind, Except.bind]
  · have : kmiInit data offset nrm = .error e := by
      rcases h with ⟨h, rfl⟩ | ⟨h, ho, rfl⟩
      · exact (C74_kmi_constructor data offset nrm).1 h
      · exact (C74_kmi_constructor data offset nrm).2.1 h ho
    refine ⟨fun cfg => ⟨?_, ?_⟩, fun cfg noise => ⟨?_, ?_⟩, fun val k order noise => ?_⟩ <;>
      simp only [kernelMI, kernelMILocal, ksgMI, ksgMILocal, expMI, this, bind, Except.bind]

/-- three variables with an offset; one variable; different lengths; no offset argument -/
example (b : Base) (cfg : KdeCfg) :
    discreteMI (.all1D [[0, 1], [1, 1], [0, 0]]) (some 1) b = .error .valueError ∧
    discreteMI (.all1D [[0, 1]]) (some 0) b = .error .valueError ∧
    discreteMI (.all1D [[0, 1], [0, 1, 2]]) (some 0) b = .error .valueError ∧
    discreteMI (.all1D [[0, 1], [1, 1]]) none b = .error .typeError ∧
    kernelMI [.one [0, 1], .one [1]] (some 1) false cfg b = .error .valueError := by
  refine ⟨((C74_mi_rejects (α := Int) _ b .valueError).1 _ (Or.inl ⟨?_, rfl⟩)).1 _,
    ((C74_mi_rejects (α := Int) _ b .valueError).1 _ (Or.inl ⟨?_, rfl⟩)).1 _,
    ((C74_mi_rejects (α := Int) _ b .valueError).1 _ (Or.inl ⟨?_, rfl⟩)).1 _,
    ((C74_mi_rejects (α := Int) _ b .typeError).1 _ (Or.inr ⟨?_, rfl, rfl⟩)).1 _,
    (((C74_mi_rejects (α := Int) _ b .valueError).2.2.2 _ _ (Or.inl ⟨?_, rfl⟩)).1 _).1⟩ <;>
    simp [BadMI, KVar.len]

/-- **C74** Two variables: the plug-in and the Miller–Madow estimator give a value exactly for two series of equal length and an
integer offset smaller than this length; the value is that of the shifted series.  A larger offset leaves no samples and
is a ValueError, `offset=None` is a TypeError. -/
theorem C74_mi_accepts_pair (xs ys : List Int) (offset : Option Int) (b : Base) (hb : b.Std) (mm : Bool) (hov : xs.length < 2 ^ 32) :
    ((∃ v, discreteMI (.all1D [xs, ys]) offset b mm = .ok v) ↔
      xs.length = ys.length ∧ ∃ o : Int, offset = some o ∧ o.natAbs < xs.length) ∧
    (discreteMI (.all1D [xs, ys]) offset b mm = .error .typeError ↔ xs.length = ys.length ∧ offset = none) ∧
    (discreteMI (.all1D [xs, ys]) offset b mm = .error .valueError ↔
      xs.length ≠ ys.length ∨ ∃ o : Int, offset = some o ∧ xs.length ≤ o.natAbs) := by
  have key : (xs.length ≠ ys.length ∧ discreteMI (.all1D [xs, ys]) offset b mm = .error .valueError) ∨
      (xs.length = ys.length ∧ offset = none ∧ discreteMI (.all1D [xs, ys]) offset b mm = .error .typeError) ∨
      (xs.length = ys.length ∧ ∃ o : Int, offset = some o ∧ xs.length ≤ o.natAbs ∧
        discreteMI (.all1D [xs, ys]) offset b mm = .error .valueError) ∨
      (xs.length = ys.length ∧ ∃ o : Int, offset = some o ∧ o.natAbs < xs.length ∧
        ∃ v, discreteMI (.all1D [xs, ys]) offset b mm = .ok v) := by
    by_cases hl : xs.length = ys.length
    · have hgood : ¬ BadMI ([xs, ys].map List.length) offset := by
        simp [BadMI, hl]
      rcases offset with _ | o
      · exact Or.inr (Or.inl ⟨hl, rfl,
          ((C74_mi_rejects (α := Int) none b .typeError).1 [xs, ys] (Or.inr ⟨hgood, rfl, rfl⟩)).1 mm⟩)
      · -- the shifted pair
        obtain ⟨x', y', hi, hx', hxy'⟩ : ∃ x' y' : List Int, miInit [xs, ys] (some o) = .ok [x', y'] ∧
            x'.length = xs.length - o.natAbs ∧ x'.length = y'.length := by
          rcases Int.natAbs_eq o with h | h
          · exact ⟨_, _, (congrArg (fun o => miInit [xs, ys] (some o)) h).trans (miInit_offset xs ys hl o.natAbs).1,
              by simp, by simp [hl]⟩
          · exact ⟨_, _, (congrArg (fun o => miInit [xs, ys] (some o)) h).trans (miInit_offset xs ys hl o.natAbs).2,
              by simp, by simp [hl]⟩
        have e : discreteMI (.all1D [xs, ys]) (some o) b mm = mi2dInt (logBase b) x' y' (if mm then some b else none) := by
          simp only [discreteMI, hi, bind, Except.bind, miGlobal]
        by_cases ho : xs.length ≤ o.natAbs
        · refine Or.inr (Or.inr (Or.inl ⟨hl, o, rfl, ho, ?_⟩))
          rw [e]
          have : x'.length = 0 := by omega
          unfold mi2dInt
          simp only [this, if_true]
        · push Not at ho
          refine Or.inr (Or.inr (Or.inr ⟨hl, o, rfl, ho, ?_⟩))
          have hne : 0 < x'.length := by omega
          have hp : x'.length ^ 2 < 2 ^ 64 := by
            have : x'.length ^ 2 < (2 ^ 32) ^ 2 := Nat.pow_lt_pow_left (by omega) (by norm_num)
            simpa [← pow_mul] using this
          obtain ⟨g, _, hg, _⟩ := C15_local_mi_mean [x', y'] x'.length hne (by simp) (by simp [hxy'.symm]) (by simpa using hp) b hb mm
          rw [discreteMI_pair hxy'] at hg
          exact ⟨g, e.trans hg⟩
    · refine Or.inl ⟨hl, ((C74_mi_rejects (α := Int) offset b .valueError).1 [xs, ys] (Or.inl ⟨?_, rfl⟩)).1 mm⟩
      exact Or.inr (Or.inl ⟨xs.length, by simp, ys.length, by simp, hl⟩)
  rcases key with ⟨h1, h2⟩ | ⟨h1, h2, h3⟩ | ⟨h1, o, h2, h3, h4⟩ | ⟨h1, o, h2, h3, v, h4⟩
  · simp [h1, h2]
  · simp [h1, h2, h2 ▸ h3]
  · rw [h4, h2]; simp [h1]; omega
  · rw [h4, h2]; simp [h1]; omega

/-- a lag of one sample is accepted, a lag of the whole length is not -/
example : (∃ v, discreteMI (.all1D [[0, 1, 1], [1, 0, 1]]) (some (-1)) .e = .ok v) ∧
    discreteMI (.all1D [[0, 1, 1], [1, 0, 1]]) (some 3) .e = .error .valueError := by
  refine ⟨(C74_mi_accepts_pair [0, 1, 1] [1, 0, 1] (some (-1)) .e trivial false (by norm_num)).1.2 ⟨rfl, -1, rfl, by norm_num⟩,
    (C74_mi_accepts_pair [0, 1, 1] [1, 0, 1] (some 3) .e trivial false (by norm_num)).2.2.2 (Or.inr ⟨3, rfl, by norm_num⟩)⟩

/-- **C74** Any number of (non-empty) variables without offset: a value exactly for at least two variables of equal length. -/
theorem C74_mi_accepts_many (data : List (List Int)) (b : Base) (hb : b.Std) (mm : Bool) (hne : [] ∉ data)
    (hov : ∀ c ∈ data, c.length ^ data.length < 2 ^ 64) :
    ((∃ v, discreteMI (.all1D data) (some 0) b mm = .ok v) ↔ 2 ≤ data.length ∧ ∀ c ∈ data, ∀ d ∈ data, c.length = d.length) ∧
    (discreteMI (.all1D data) (some 0) b mm = .error .valueError ↔
      data.length < 2 ∨ ∃ c ∈ data, ∃ d ∈ data, c.length ≠ d.length) := by
  by_cases hb' : BadMI (data.map List.length) (some 0)
  · have e := ((C74_mi_rejects (α := Int) (some 0) b .valueError).1 data (Or.inl ⟨hb', rfl⟩)).1 mm
    simp only [BadMI, List.length_map, List.mem_map, exists_exists_and_eq_and, Option.some.injEq] at hb'
    have hb'' : data.length < 2 ∨ ∃ c ∈ data, ∃ d ∈ data, c.length ≠ d.length := by
      rcases hb' with h | h | ⟨_, o, rfl, h⟩
      · exact Or.inl h
      · exact Or.inr h
      · exact absurd rfl h
    refine ⟨?_, ?_⟩
    · rw [e]
      simp only [reduceCtorEq, exists_false, false_iff, not_and]
      intro h2 h3
      rcases hb'' with h | ⟨c, hc, d, hd, h⟩
      · omega
      · exact h (h3 c hc d hd)
    · rw [e]; simpa using hb''
  · simp only [BadMI, List.length_map, List.mem_map, exists_exists_and_eq_and, Option.some.injEq, not_or] at hb'
    obtain ⟨h2, h3, _⟩ := hb'
    push Not at h2 h3
    obtain ⟨x, r, rfl⟩ : ∃ x r, data = x :: r := by
      cases data with
      | nil => simp at h2
      | cons x r => exact ⟨x, r, rfl⟩
    have hN : 0 < x.length := List.length_pos_iff.2 (fun h => hne (by simp [h]))
    obtain ⟨g, _, hg, _⟩ := C15_local_mi_mean (x :: r) x.length hN h2 (fun c hc => h3 c hc x (by simp)) (hov x (by simp)) b hb mm
    refine ⟨⟨fun _ => ⟨h2, h3⟩, fun _ => ⟨g, hg⟩⟩, ?_⟩
    rw [hg]
    simp only [reduceCtorEq, false_iff, not_or, not_exists, not_and, not_lt]
    exact ⟨h2, fun c hc d hd => not_not.2 (h3 c hc d hd)⟩

/-- three variables of equal length are accepted, a fourth that is shorter is not -/
example : (∃ v, discreteMI (.all1D [[0, 1], [1, 1], [0, 0]]) (some 0) .e = .ok v) ∧
    discreteMI (.all1D [[0, 1], [1, 1], [0, 0], [1]]) (some 0) .e = .error .valueError := by
  refine ⟨(C74_mi_accepts_many [[0, 1], [1, 1], [0, 0]] .e trivial false (by simp) (by simp)).1.2 ⟨by simp, by simp⟩,
    (C74_mi_accepts_many [[0, 1], [1, 1], [0, 0], [1]] .e trivial false (by simp) (by simp)).2.2 (Or.inr ?_)⟩
  exact ⟨[0, 1], by simp, [1], by simp, by simp⟩

/-! ## Conditional mutual information -/

/-- what makes a call of conditional mutual information wrong whatever the estimator: an offset, or a variable that is not as
long as the condition (`n`) -/
def BadCMI (lens : List Nat) (n : Nat) (offset : Option Int) : Prop :=
  (∃ o : Int, offset = some o ∧ o ≠ 0) ∨ (2 ≤ lens.length ∧ ∃ a ∈ lens, a ≠ n)

/-- the constructor of the discrete and ordinal estimators, for any element types -/
theorem C74_cmi_constructor {α γ : Type} (data : List (List α)) (z : List γ) (offset : Option Int) :
    cmiInit data (none : Option (List γ)) offset = .error .valueError ∧
    (BadCMI (data.map List.length) z.length offset → cmiInit data (some z) offset = .error .valueError) ∧
    (¬ BadCMI (data.map List.length) z.length offset → data.length < 2 → cmiInit data (some z) offset = .error .indexError) ∧
    (¬ BadCMI (data.map List.length) z.length offset → 2 ≤ data.length → cmiInit data (some z) offset = .ok (data, z)) := by
  have ho : (∃ o : Int, offset = some o ∧ o ≠ 0) ↔ ¬ (offset = some 0 ∨ offset = none) := by
    rcases offset with _ | o
    · simp
    · simp
  refine ⟨rfl, fun h => ?_, fun h h2 => ?_, fun h h2 => ?_⟩
  · unfold cmiInit
    simp only
    by_cases h1 : ¬ (offset = some 0 ∨ offset = none)
    · rw [if_pos h1]
    rw [if_neg h1]
    rcases h with h | ⟨h2, a, ha, hne⟩
    · exact absurd (ho.1 h) h1
    rw [List.length_map] at h2
    match data, h2 with
    | x :: y :: rest, _ =>
      simp only [List.map_cons, List.mem_cons, List.mem_map] at ha
      simp only
      split_ifs with h3 h4
      · rfl
      · rfl
      · push Not at h3
        exfalso
        rcases ha with rfl | rfl | ⟨v, hv, rfl⟩
        · exact hne h3.2
        · exact hne (h3.1.symm.trans h3.2)
        · rw [Bool.not_eq_false, List.all_eq_true] at h4
          exact hne (of_decide_eq_true (h4 v hv))
  · have h1 : offset = some 0 ∨ offset = none := by
      by_contra hc; exact h (Or.inl (ho.2 hc))
    match data, h2 with
    | [], _ => simp [cmiInit, h1]
    | [x], _ => simp [cmiInit, h1]
  · have h1 : offset = some 0 ∨ offset = none := by
      by_contra hc; exact h (Or.inl (ho.2 hc))
    refine cmiInit_ok h2 (fun c hc => ?_) h1
    by_contra hne
    exact h (Or.inr ⟨by simpa using h2, c.length, List.mem_map_of_mem hc, hne⟩)

example := (C74_cmi_constructor [[5, 7, 5], [0, 0, 1]] [3, 3, 4] none).2.2.2 (by simp [BadCMI]) (by decide)
example := (C74_cmi_constructor [[5, 7, 5], [0, 0, 1]] [3, 3] none).2.1 (by simp [BadCMI])

/-- the constructor of the kernel, KSG, Rényi and Tsallis estimators; it compares the first two variables with the condition -/
theorem C74_kcmi_constructor (data : List KVar) (z : KVar) (offset : Option Int) (normalize : Bool) :
    kcmiInit data none offset normalize = .error .valueError ∧
    (BadCMI ((data.take 2).map KVar.len) z.len offset → kcmiInit data (some z) offset normalize = .error .valueError) ∧
    (¬ BadCMI ((data.take 2).map KVar.len) z.len offset → data.length < 2 →
      kcmiInit data (some z) offset normalize = .error .indexError) ∧
    (¬ BadCMI ((data.take 2).map KVar.len) z.len offset → 2 ≤ data.length → kcmiInit data (some z) offset false = .ok (data, z)) := by
  have ho : (∃ o : Int, offset = some o ∧ o ≠ 0) ↔ ¬ (offset = some 0 ∨ offset = none) := by
    rcases offset with _ | o
    · simp
    · simp
  refine ⟨rfl, fun h => ?_, fun h h2 => ?_, fun h h2 => ?_⟩
  · unfold kcmiInit
    simp only
    by_cases h1 : ¬ (offset = some 0 ∨ offset = none)
    · rw [if_pos h1]
    rw [if_neg h1]
    rcases h with h | ⟨h2, a, ha, hne⟩
    · exact absurd (ho.1 h) h1
    match data, h2 with
    | x :: y :: rest, _ =>
      simp only [List.take_succ_cons, List.take_zero, List.map_cons, List.map_nil, List.mem_cons, List.not_mem_nil, or_false] at ha
      simp only
      rw [if_pos]
      by_contra h3
      push Not at h3
      rcases ha with rfl | rfl
      · exact hne h3.2
      · exact hne (h3.1.symm.trans h3.2)
    | [x], h2 => simp at h2
    | [], h2 => simp at h2
  · have h1 : offset = some 0 ∨ offset = none := by
      by_contra hc; exact h (Or.inl (ho.2 hc))
    match data, h2 with
    | [], _ => simp [kcmiInit, h1]
    | [x], _ => simp [kcmiInit, h1]
  · have h1 : offset = some 0 ∨ offset = none := by
      by_contra hc; exact h (Or.inl (ho.2 hc))
    match data, h2 with
    | x :: y :: rest, _ =>
      have hx : x.len = z.len := by
        by_contra hne; exact h (Or.inr ⟨by simp, x.len, by simp, hne⟩)
      have hy : y.len = z.len := by
        by_contra hne; exact h (Or.inr ⟨by simp, y.len, by simp, hne⟩)
      simp [kcmiInit, h1, hx, hy, pure, Except.pure]

example := (C74_kcmi_constructor [.one [5, 7, 5], .one [0, 0, 1]] (.one [3, 3, 4]) none true).2.2.2 (by simp [BadCMI, KVar.len]) (by decide)
example := (C74_kcmi_constructor [.one [5, 7, 5], .one [0, 0, 1]] (.one [3, 3]) none true).2.1 (by simp [BadCMI, KVar.len])

/-- stacking columns with different numbers of rows -/
theorem stackArrs_reject {as : List Arr} {a b : Arr} (ha : a ∈ as) (hb : b ∈ as) (h : a.rows.length ≠ b.rows.length) :
    stackArrs as = .error .valueError := by
  cases as with
  | nil => simp at ha
  | cons x r =>
    have : (r.map Arr.rows).all (fun q => decide (q.length = x.rows.length)) = false := by
      rw [← Bool.not_eq_true, List.all_eq_true]
      intro hall
      have hx : ∀ c ∈ x :: r, c.rows.length = x.rows.length := by
        intro c hc
        rcases List.mem_cons.1 hc with rfl | hc
        · rfl
        · exact of_decide_eq_true (hall _ (List.mem_map_of_mem hc))
      exact h ((hx a ha).trans (hx b hb).symm)
    unfold stackArrs concatRows
    simp only [List.map_cons, this, Bool.false_eq_true, if_false, bind, Except.bind]

theorem assure2d_rows_length (v : KVar) : (assure2d v).rows.length = v.len := by
  cases v <;> simp [assure2d, KVar.len]

theorem jitter_rows_length (e : Option (Nat → Nat → ℝ)) (a : Arr) : (jitter e a).rows.length = a.rows.length := by
  cases e <;> simp [jitter]

/-- **C74** Every conditional mutual information estimator raises ValueError without a condition, with an offset, and when a
variable is not as long as the condition; with fewer than two variables it is an IndexError. -/
theorem C74_cmi_rejects {α : Type} [LinearOrder α] [Inhabited α] (offset : Option Int) (b : Base) :
    -- no condition
    ((∀ data : List (List Int), ∀ mm, discreteCMI data none offset b mm = .error .valueError ∧
        discreteCMILocal data none offset b mm = .error .valueError) ∧
      (∀ (q : Argsort α) (data : List (List α)) (p : OrdParams), ordCMI q data none p offset b = .error .valueError ∧
        ordCMILocal q data none p offset b = .error .valueError) ∧
      (∀ (data : List KVar) (nm : Bool), (∀ cfg, kernelCMI data none offset nm cfg b = .error .valueError) ∧
        (∀ cfg noise noiseZ, ksgCMI data none offset nm cfg noise noiseZ b = .error .valueError) ∧
        (∀ val k order noise noiseZ, expCMI val data none offset nm k order noise noiseZ b = .error .valueError))) ∧
    -- discrete data
    (∀ (data : List (List Int)) (z : List Int) (e : Exc), ((BadCMI (data.map List.length) z.length offset ∧ e = .valueError) ∨
        (¬ BadCMI (data.map List.length) z.length offset ∧ data.length < 2 ∧ e = .indexError)) →
      (∀ mm c, c = .arr1 z ∨ c = .list1 z → discreteCMI data (some c) offset b mm = .error e ∧
        discreteCMILocal data (some c) offset b mm = .error e) ∧
      (∀ est, genericCMI est data z offset = .error e) ∧
      (∀ c, biasCMI c data z offset b = .error e) ∧
      (∀ find K, nsbCMI find K data z offset b = .error e)) ∧
    -- ordinal
    (∀ (q : Argsort α) (data : List (List α)) (z : List α) (p : OrdParams) (e : Exc),
      ((BadCMI (data.map List.length) z.length offset ∧ e = .valueError) ∨
        (¬ BadCMI (data.map List.length) z.length offset ∧ data.length < 2 ∧ e = .indexError)) →
      ordCMI q data (some z) p offset b = .error e ∧ ordCMILocal q data (some z) p offset b = .error e) ∧
    -- continuous data: the first two variables
    (∀ (data : List KVar) (z : KVar) (nm : Bool) (e : Exc), ((BadCMI ((data.take 2).map KVar.len) z.len offset ∧ e = .valueError) ∨
        (¬ BadCMI ((data.take 2).map KVar.len) z.len offset ∧ data.length < 2 ∧ e = .indexError)) →
      (∀ cfg, kernelCMI data (some z) offset nm cfg b = .error e ∧ kernelCMILocal data (some z) offset nm cfg b = .error e) ∧
      (∀ cfg noise noiseZ, ksgCMI data (some z) offset nm cfg noise noiseZ b = .error e ∧
        ksgCMILocal data (some z) offset nm cfg noise noiseZ b = .error e) ∧
      (∀ val k order noise noiseZ, expCMI val data (some z) offset nm k order noise noiseZ b = .error e)) ∧
    -- continuous data: any variable
    (∀ (data : List KVar) (z : KVar), BadCMI (data.map KVar.len) z.len offset →
      (∀ cfg, kernelCMI data (some z) offset false cfg b = .error .valueError ∧
        kernelCMILocal data (some z) offset false cfg b = .error .valueError) ∧
      (∀ cfg noise noiseZ, ksgCMI data (some z) offset false cfg noise noiseZ b = .error .valueError ∧
        ksgCMILocal data (some z) offset false cfg noise noiseZ b = .error .valueError)) := by
  have I : ∀ {β γ : Type} (data : List (List β)) (z : List γ) (e : Exc),
      ((BadCMI (data.map List.length) z.length offset ∧ e = .valueError) ∨
        (¬ BadCMI (data.map List.length) z.length offset ∧ data.length < 2 ∧ e = .indexError)) →
      cmiInit data (some z) offset = .error e := by
    rintro β γ data z e (⟨h, rfl⟩ | ⟨h, h2, rfl⟩)
    · exact (C74_cmi_constructor data z offset).2.1 h
    · exact (C74_cmi_constructor data z offset).2.2.1 h h2
  have K : ∀ (data : List KVar) (z : KVar) (nm : Bool) (e : Exc), ((BadCMI ((data.take 2).map KVar.len) z.len offset ∧ e = .valueError) ∨
        (¬ BadCMI ((data.take 2).map KVar.len) z.len offset ∧ data.length < 2 ∧ e = .indexError)) →
      (∀ cfg, kernelCMI data (some z) offset nm cfg b = .error e ∧ kernelCMILocal data (some z) offset nm cfg b = .error e) ∧
      (∀ cfg noise noiseZ, ksgCMI data (some z) offset nm cfg noise noiseZ b = .error e ∧
        ksgCMILocal data (some z) offset nm cfg noise noiseZ b = .error e) ∧
      (∀ val k order noise noiseZ, expCMI val data (some z) offset nm k order noise noiseZ b = .error e) := by
    intro data z nm e h
    have : kcmiInit data (some z) offset nm = .error e := by
      rcases h with ⟨h, rfl⟩ | ⟨h, h2, rfl⟩
      · exact (C74_kcmi_constructor data z offset nm).2.1 h
      · exact (C74_kcmi_constructor data z offset nm).2.2.1 h h2
    refine ⟨fun cfg => ⟨?_, ?_⟩, fun cfg noise noiseZ => ⟨?_, ?_⟩, fun val k order noise noiseZ => ?_⟩ <;>
      simp only [kernelCMI, kernelCMILocal, ksgCMI, ksgCMILocal, expCMI, this, bind, Except.bind]
  refine ⟨⟨fun data mm => ⟨rfl, rfl⟩, fun q data p => ⟨rfl, rfl⟩,
    fun data nm => ⟨fun cfg => rfl, fun cfg noise noiseZ => rfl, fun val k order noise noiseZ => rfl⟩⟩, ?_, ?_, K, ?_⟩
  · intro data z e h
    have := I data z e h
    refine ⟨fun mm c hc => ?_, ?_, ?_, ?_⟩
    · have hr : condReduce mm c = .ok z := by rcases hc with rfl | rfl <;> rfl
      constructor <;> simp only [discreteCMI, discreteCMILocal, hr, Except.map, this, bind, Except.bind]
    all_goals
      intros
      simp only [genericCMI, biasCMI, nsbCMI, this, bind, Except.bind]
  · intro q data z p e h
    constructor <;> simp only [ordCMI, ordCMILocal, ordCMIInit, I data z e h, bind, Except.bind]
  · intro data z h
    by_cases h2 : BadCMI ((data.take 2).map KVar.len) z.len offset
    · have := K data z false .valueError (Or.inl ⟨h2, rfl⟩)
      exact ⟨this.1, this.2.1⟩
    · rcases h with h | ⟨hl, a, ha, hne⟩
      · exact absurd (Or.inl h) h2
      obtain ⟨v, hv, rfl⟩ := List.mem_map.1 ha
      rw [List.length_map] at hl
      have hi := (C74_kcmi_constructor data z offset false).2.2.2 h2 hl
      have e1 : ∀ cfg, kernelCMILocal data (some z) offset false cfg b = .error .valueError := by
        intro cfg
        have : stackArrs (data.map assure2d ++ [assure2d z]) = .error .valueError :=
          stackArrs_reject (a := assure2d v) (b := assure2d z) (by simp only [List.mem_append, List.mem_map]; exact Or.inl ⟨v, hv, rfl⟩) (by simp)
            (by rw [assure2d_rows_length, assure2d_rows_length]; exact hne)
        simp only [kernelCMILocal, hi, kernelCMICalc, this, bind, Except.bind]
      have e2 : ∀ cfg noise noiseZ, ksgCMILocal data (some z) offset false cfg noise noiseZ b = .error .valueError := by
        intro cfg noise noiseZ
        obtain ⟨i, hi', rfl⟩ := List.getElem_of_mem hv
        have : stackArrs ((data.map assure2d).mapIdx (fun i a => jitter (noise i) a) ++ [jitter noiseZ (assure2d z)]) =
            .error .valueError := by
          refine stackArrs_reject (a := jitter (noise i) (assure2d data[i])) (b := jitter noiseZ (assure2d z)) ?_ (by simp) ?_
          · refine List.mem_append_left _ (List.mem_mapIdx.2 ⟨i, by simpa using hi', by simp⟩)
          · rw [jitter_rows_length, jitter_rows_length, assure2d_rows_length, assure2d_rows_length]; exact hne
        have hcalc : ksgCMICalc cfg b ((data.map assure2d).mapIdx (fun i a => jitter (noise i) a)) (jitter noiseZ (assure2d z)) =
            .error .valueError := by
          simp only [ksgCMICalc, this, bind, Except.bind]
        simp only [ksgCMILocal, hi, bind, Except.bind]
        by_cases hid : cfg.ksgId = 1 ∨ cfg.ksgId = 2
        · simp only [ksgIdCheck, if_pos hid, hcalc]
        · simp only [ksgIdCheck, if_neg hid]
      refine ⟨fun cfg => ⟨by simp only [kernelCMI, e1, bind, Except.bind], e1 cfg⟩, fun cfg noise noiseZ =>
        ⟨by simp only [ksgCMI, e2, bind, Except.bind], e2 cfg noise noiseZ⟩⟩

/-- an offset, a short condition, a single variable, a third variable that is too long -/
example (b : Base) (cfg : KdeCfg) :
    discreteCMI [[0, 1], [1, 1]] (some (.arr1 [0, 0])) (some 1) b = .error .valueError ∧
    discreteCMI [[0, 1], [1, 1]] (some (.list1 [0])) none b = .error .valueError ∧
    discreteCMI [[0, 1]] (some (.arr1 [0, 0])) none b = .error .indexError ∧
    kernelCMI [.one [0, 1], .one [1, 1], .one [1, 1, 1]] (some (.one [0, 0])) none false cfg b = .error .valueError := by
  refine ⟨(((C74_cmi_rejects (α := Int) (some 1) b).2.1 [[0, 1], [1, 1]] [0, 0] .valueError (Or.inl ⟨?_, rfl⟩)).1 false _ (Or.inl rfl)).1,
    (((C74_cmi_rejects (α := Int) none b).2.1 [[0, 1], [1, 1]] [0] .valueError (Or.inl ⟨?_, rfl⟩)).1 false _ (Or.inr rfl)).1,
    (((C74_cmi_rejects (α := Int) none b).2.1 [[0, 1]] [0, 0] .indexError (Or.inr ⟨?_, by simp, rfl⟩)).1 false _ (Or.inl rfl)).1,
    (((C74_cmi_rejects (α := Int) none b).2.2.2.2 [.one [0, 1], .one [1, 1], .one [1, 1, 1]] (.one [0, 0]) ?_).1 cfg).1⟩ <;>
    simp [BadCMI, KVar.len]

/-- **C74** The calls of the plug-in and Miller–Madow conditional mutual information that give a value are exactly those with at least two
variables, all as long as the (non-empty, one-dimensional) condition, and no offset. -/
theorem C74_cmi_accepts (data : List (List Int)) (z : List Int) (c : CondArg) (hc : c = .arr1 z ∨ c = .list1 z) (offset : Option Int) (b : Base)
    (hb : b.Valid) (mm : Bool) (hz : z ≠ []) (hov : z.length ^ data.length < 2 ^ 64) :
    ((∃ v, discreteCMI data (some c) offset b mm = .ok v) ↔
      (offset = none ∨ offset = some 0) ∧ 2 ≤ data.length ∧ ∀ x ∈ data, x.length = z.length) ∧
    (discreteCMI data (some c) offset b mm = .error .indexError ↔ (offset = none ∨ offset = some 0) ∧ data.length < 2) ∧
    (discreteCMI data (some c) offset b mm = .error .valueError ↔
      ¬ (offset = none ∨ offset = some 0) ∨ (2 ≤ data.length ∧ ∃ x ∈ data, x.length ≠ z.length)) := by
  have ho : (∃ o : Int, offset = some o ∧ o ≠ 0) ↔ ¬ (offset = none ∨ offset = some 0) := by
    rcases offset with _ | o
    · simp
    · simp
  have hbad : BadCMI (data.map List.length) z.length offset ↔
      ¬ (offset = none ∨ offset = some 0) ∨ (2 ≤ data.length ∧ ∃ x ∈ data, x.length ≠ z.length) := by
    unfold BadCMI
    rw [ho]
    simp
  by_cases h1 : BadCMI (data.map List.length) z.length offset
  · have e := (((C74_cmi_rejects (α := Int) offset b).2.1 data z .valueError (Or.inl ⟨h1, rfl⟩)).1 mm c hc).1
    rw [hbad] at h1
    rw [e]
    refine ⟨⟨fun h => by simp at h, fun h => ?_⟩, ⟨fun h => by simp at h, fun h => ?_⟩, ⟨fun _ => h1, fun _ => rfl⟩⟩
    · rcases h1 with h1 | ⟨_, x, hx, h1⟩
      · exact absurd h.1 h1
      · exact absurd (h.2.2 x hx) h1
    · rcases h1 with h1 | ⟨h2, _⟩
      · exact absurd h.1 h1
      · exact absurd h.2 (not_lt.2 h2)
  · have h1' := h1
    rw [hbad] at h1'
    push Not at h1'
    obtain ⟨hoff, hall⟩ := h1'
    by_cases h2 : data.length < 2
    · have e := (((C74_cmi_rejects (α := Int) offset b).2.1 data z .indexError (Or.inr ⟨h1, h2, rfl⟩)).1 mm c hc).1
      rw [e]
      refine ⟨⟨fun h => by simp at h, fun h => absurd h.2.1 (by omega)⟩, ⟨fun _ => ⟨hoff, h2⟩, fun _ => rfl⟩,
        ⟨fun h => by simp at h, fun h => absurd h (hbad.not.1 h1)⟩⟩
    · push Not at h2
      have hr : condReduce mm c = .ok z := by rcases hc with rfl | rfl <;> rfl
      obtain ⟨g, _, hg, _⟩ := C16_local_cmi_mean data z (List.length_pos_iff.2 hz) h2 (hall h2) hov b hb mm
      rw [discreteCMI_eq h2 (hall h2) rfl (Or.inr rfl)] at hg
      rw [discreteCMI_eq h2 (hall h2) hr hoff.symm, hg]
      refine ⟨⟨fun _ => ⟨hoff, h2, hall h2⟩, fun _ => ⟨g, rfl⟩⟩, ⟨fun h => by simp at h, fun h => absurd h.2 (not_lt.2 h2)⟩,
        ⟨fun h => by simp at h, fun h => absurd h (hbad.not.1 h1)⟩⟩

example := C74_cmi_accepts [[5, 7, 5], [0, 0, 1]] [3, 3, 4] (.list1 [3, 3, 4]) (.inr rfl) none (.num 2) (by norm_num [Base.Valid]) false (by decide) (by decide)

/-- the two-dimensional and joint conditions: the plug-in estimator joins the columns of a tuple or the rows of an array, the
Miller–Madow estimator rejects both; nested lists and higher-dimensional arrays are always a ValueError -/
theorem C74_cmi_condition (data : List (List Int)) (offset : Option Int) (b : Base) :
    (∀ mm, discreteCMI data (some .list2) offset b mm = .error .valueError ∧
      discreteCMI data (some .arrOther) offset b mm = .error .valueError) ∧
    (∀ rows, discreteCMI data (some (.arr2 rows)) offset b true = .error .valueError) ∧
    (∀ cols, discreteCMI data (some (.tup cols)) offset b true = .error .valueError) ∧
    (∀ rows, discreteCMI data (some (.arr2 rows)) offset b false =
      discreteCMI data (some (.arr1 ((npInverse rows).map Int.ofNat))) offset b false) ∧
    (∀ cols, (∃ c ∈ cols, ∃ d ∈ cols, c.length ≠ d.length) →
      discreteCMI data (some (.tup cols)) offset b false = .error .valueError) := by
  refine ⟨fun mm => ⟨rfl, rfl⟩, fun rows => rfl, fun cols => rfl, fun rows => rfl, fun cols h => ?_⟩
  have : condReduce false (.tup cols) = .error .valueError := by
    obtain ⟨x, r, rfl⟩ : ∃ x r, cols = x :: r := by
      cases cols with
      | nil => simp at h
      | cons x r => exact ⟨x, r, rfl⟩
    have hall' : ¬ (r.all (fun d => decide (d.length = x.length)) = true) := by
      intro h'
      rw [List.all_eq_true] at h'
      obtain ⟨c, hc, d, hd, hne⟩ := h
      have hx : ∀ w ∈ x :: r, w.length = x.length := by
        intro w hw
        rcases List.mem_cons.1 hw with rfl | hw
        · rfl
        · exact of_decide_eq_true (h' w hw)
      exact hne ((hx c hc).trans (hx d hd).symm)
    simp only [condReduce, reduceJointSpace, columnStack, Bool.false_eq_true, if_false]
    rw [if_neg hall']
    rfl
  simp only [discreteCMI, this, Except.map, bind, Except.bind]

example := (C74_cmi_condition [[5, 7, 5], [0, 0, 1]] none .e).2.2.2.2 [[1, 2], [3]] (by simp)

end Verif
