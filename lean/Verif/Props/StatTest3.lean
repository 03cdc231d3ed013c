import Verif.Props.StatTest2
import Verif.Props.TE3
import Verif.Props.MI
import Verif.Props.CMI

/-! # C44: what a statistical test randomises -/

namespace Verif

open Spec

section General
variable {D G : Type}

/-- every value of the loop is the computation on a resampled first variable and the same second one -/
theorem miLoop_values (comp : MICalc D G) (rs : D → G → D × G) (n : Nat) (s : MIInner D G) (x y : D)
    (ho : s.orig = some [x, y]) (vs : List ℝ) (h : (miLoop comp rs n s).1 = .ok vs) :
    ∀ v ∈ vs, ∃ g q, (comp [(rs x g).1, y] (rs x g).2).1 = .ok q ∧ testValue q = .ok v := by
  induction n generalizing s vs with
  | zero => cases h; simp
  | succ n ih =>
    unfold miLoop at h
    have hor := miSelection_orig comp rs s
    have hsel : ∀ v, (miSelection comp rs s).1 = .ok v →
        ∃ g q, (comp [(rs x g).1, y] (rs x g).2).1 = .ok q ∧ testValue q = .ok v := by
      intro v hv
      unfold miSelection at hv
      rw [ho] at hv
      simp only at hv
      refine ⟨s.rng, ?_⟩
      split at hv
      · cases hv
      · rename_i q _ hc
        exact ⟨q, by rw [hc], hv⟩
    cases hm : miSelection comp rs s with
    | mk r s1 =>
      rw [hm] at h hsel hor
      cases r with
      | error e => cases h
      | ok w =>
        simp only at h
        cases hl : miLoop comp rs n s1 with
        | mk r2 s2 =>
          rw [hl] at h
          cases r2 with
          | error e => cases h
          | ok ws =>
            cases h
            intro v hv
            rcases List.mem_cons.1 hv with rfl | hv
            · exact hsel _ rfl
            · exact ih s1 (hor.trans ho) ws (by rw [hl]) v hv

/-- the resampling operation of a method -/
def Resampler.ofMethod (R : Resampler D G) (m : String) : D → G → D × G :=
  if m = "permutation_test" then R.permute else R.choice

theorem statTestMI_values (comp : MICalc D G) (R : Resampler D G) (cfg : Settings)
    (nT : Option PyArg) (m : Option String) (s : MIInner D G) (x y : D) (hd : s.data = [x, y])
    {n : Int} {m' : String} {vs : List ℝ} (h : (statTestMI comp R cfg nT m s).1 = .ok (n, m', vs)) :
    ∀ v ∈ vs, ∃ g q, (comp [(R.ofMethod m' x g).1, y] (R.ofMethod m' x g).2).1 = .ok q ∧
      testValue q = .ok v := by
  unfold statTestMI at h
  cases ha : testArgs cfg nT m with
  | error e => rw [ha] at h; cases h
  | ok p =>
    rw [ha] at h
    simp only [hd, List.length_cons, List.length_nil, ne_eq, not_true_eq_false, if_false] at h
    unfold testMI at h
    by_cases hp : p.2 = "permutation_test"
    · simp only [hp, if_true] at h
      cases hl : miLoop comp R.permute p.1.toNat { s with orig := some s.data } with
      | mk r s1 =>
        rw [hl] at h
        cases r with
        | error e => cases h
        | ok ws =>
          cases h
          have := miLoop_values comp R.permute p.1.toNat { s with orig := some s.data } x y (by rw [hd])
            vs (by rw [hl])
          simpa [Resampler.ofMethod] using this
    · simp only [hp, if_false] at h
      by_cases hq : p.2 = "bootstrap"
      · simp only [hq, if_true] at h
        cases hl : miLoop comp R.choice p.1.toNat { s with orig := some s.data } with
        | mk r s1 =>
          rw [hl] at h
          cases r with
          | error e => cases h
          | ok ws =>
            cases h
            have := miLoop_values comp R.choice p.1.toNat { s with orig := some s.data } x y (by rw [hd])
              vs (by rw [hl])
            simpa [Resampler.ofMethod] using this
      · simp only [hq, if_false] at h; cases h

/-- the parts of a successful test of a mutual-information object -/
theorem statisticalTestMI_parts (comp : MICalc D G) (extract : List D → Except Exc (List ℝ))
    (R : Resampler D G) (cfg : Settings) (nT : Option PyArg) (m : Option String)
    (o : EstObj (MIInner D G) ℝ) (r : StatRes)
    (h : (statisticalTestMI comp extract R cfg nT m o).1 = .ok r) :
    (statTestMI comp R cfg nT m o.inner).1 = .ok (r.nTests, r.method, r.testValues) := by
  unfold statisticalTestMI at h
  cases ht : statTestMI comp R cfg nT m o.inner with
  | mk x s =>
    rw [ht] at h
    cases x with
    | error e => cases h
    | ok p =>
      simp only at h
      split at h
      · cases h
      · obtain ⟨-, -, -, h1, -, -, -, h2, h3⟩ := statResult_ok h
        rw [h1, h2, h3]

/-- the observed value in a report is that of a new object -/
theorem mi_observed {comp : MICalc D G} {f : List D → Except Exc (CalcRes ℝ)} (hf : DetMI comp f)
    (extract : List D → Except Exc (List ℝ)) (R : Resampler D G) (cfg : Settings) (nT : Option PyArg)
    (m : Option String) (data : List D) (g : G) {r : StatRes}
    (h : (statisticalTestMI comp extract R cfg nT m (freshMI data g)).1 = .ok r) :
    meaning (f data) = .ok r.observed := by
  have h0 : GoodMI f data (freshMI data g : EstObj (MIInner D G) ℝ) := ⟨rfl, fun v hv => (by cases hv)⟩
  have hd := (C41_mi_successful_test_restores_data comp extract R cfg _).1 nT m r h
  rw [mi_test_inner] at hd
  have h1 := (good_test comp extract R cfg hf h0 nT m hd).1
  have h2 := (good_globalVal comp extract hf h1).2
  obtain ⟨-, -, -, -, h3⟩ := C42_mi_test_report _ _ _ _ _ _ _ _ h
  simp only [stepMI, EstObj.step, EstObj.result] at h3
  rw [h2] at h3
  cases hm : meaning (f data) with
  | error e => rw [hm] at h3; cases h3
  | ok v => rw [hm] at h3; cases h3; rfl

theorem mapM_mem {α β : Type} {f : α → Except Exc β} : ∀ {l : List α} {r : List β},
    l.mapM f = .ok r → ∀ b ∈ r, ∃ a ∈ l, f a = .ok b := by
  intro l
  induction l with
  | nil => intro r h; cases h; simp
  | cons a l ih =>
    intro r h
    rw [List.mapM_cons] at h
    simp only [bind, Except.bind] at h
    cases ha : f a with
    | error e => rw [ha] at h; cases h
    | ok b =>
      rw [ha] at h
      simp only at h
      cases hl : l.mapM f with
      | error e => rw [hl] at h; cases h
      | ok bs =>
        rw [hl] at h
        cases h
        intro c hc
        rcases List.mem_cons.1 hc with rfl | hc
        · exact ⟨a, by simp, ha⟩
        · obtain ⟨a', h1, h2⟩ := ih hl c hc
          exact ⟨a', List.mem_cons_of_mem _ h1, h2⟩

theorem teLoop_values (comp : TECalc G) (n : Nat) (s : TEInner G) (vs : List (CalcRes ℝ))
    (h : (teLoop comp n s).1 = .ok vs) : ∀ q ∈ vs, ∃ g, (comp s.flags g).1 = .ok q := by
  induction n generalizing s vs with
  | zero => cases h; simp
  | succ n ih =>
    unfold teLoop at h
    cases hc : comp s.flags s.rng with
    | mk r g =>
      rw [hc] at h
      cases r with
      | error e => cases h
      | ok w =>
        simp only at h
        cases hl : teLoop comp n { s with rng := g } with
        | mk r2 s2 =>
          rw [hl] at h
          cases r2 with
          | error e => cases h
          | ok ws =>
            cases h
            intro q hq
            rcases List.mem_cons.1 hq with rfl | hq
            · exact ⟨s.rng, by rw [hc]⟩
            · exact ih { s with rng := g } ws (by rw [hl]) q hq

theorem statTestTE_values (comp : TECalc G) (cfg : Settings) (nT : Option PyArg) (m : Option String)
    (s : TEInner G) {n : Int} {m' : String} {vs : List ℝ}
    (h : (statTestTE comp cfg nT m s).1 = .ok (n, m', vs)) :
    ∃ f, methodFlags m' = some f ∧
      ∀ v ∈ vs, ∃ g q, (comp f g).1 = .ok q ∧ testValue q = .ok v := by
  unfold statTestTE at h
  cases ha : testArgs cfg nT m with
  | error e => rw [ha] at h; cases h
  | ok p =>
    rw [ha] at h
    simp only at h
    unfold testTE at h
    cases hf : methodFlags p.2 with
    | none => rw [hf] at h; cases h
    | some f =>
      rw [hf] at h
      simp only at h
      cases hl : teLoop comp p.1.toNat { s with flags := f } with
      | mk r s1 =>
        rw [hl] at h
        cases r with
        | error e => cases h
        | ok ws =>
          simp only at h
          cases hm : ws.mapM testValue with
          | error e => rw [hm] at h; cases h
          | ok us =>
            rw [hm] at h
            cases h
            refine ⟨f, hf, fun v hv => ?_⟩
            obtain ⟨q, hq, hqv⟩ := mapM_mem hm v hv
            obtain ⟨g, hg⟩ := teLoop_values comp _ _ ws (by rw [hl]) q hq
            exact ⟨g, q, hg, hqv⟩

theorem statisticalTestTE_parts (comp : TECalc G) (extract : TEFlags → Except Exc (List ℝ))
    (cfg : Settings) (nT : Option PyArg) (m : Option String)
    (o : EstObj (TEInner G) ℝ) (r : StatRes)
    (h : (statisticalTestTE comp extract cfg nT m o).1 = .ok r) :
    (statTestTE comp cfg nT m o.inner).1 = .ok (r.nTests, r.method, r.testValues) := by
  unfold statisticalTestTE at h
  cases ht : statTestTE comp cfg nT m o.inner with
  | mk x s =>
    rw [ht] at h
    cases x with
    | error e => cases h
    | ok p =>
      simp only at h
      split at h
      · cases h
      · obtain ⟨-, -, -, h1, -, -, -, h2, h3⟩ := statResult_ok h
        rw [h1, h2, h3]

/-! ### Computations that ignore the resampling -/

/-- the report of a test all of whose values are the observed one -/
theorem statResult_constant (v : ℝ) (n : Int) (hn : 2 ≤ n) (m : String) :
    ∃ r, statResult v (List.replicate n.toNat v) n m = .ok r ∧
      r.testValues = List.replicate n.toNat v ∧ r.observed = v ∧ r.pValue = 0 ∧ r.tScore = none ∧
      r.nullMean = v ∧ r.nullStd = 0 ∧ r.nTests = n ∧ r.method = m := by
  have hl : 2 ≤ (List.replicate n.toNat v).length := by simp; omega
  obtain ⟨r, hr⟩ := (C42_needs_two_values v (List.replicate n.toNat v) n m).2 hl
  obtain ⟨-, hp, -, h1, h2, h3, h4, h5, h6⟩ := statResult_ok hr
  have hpos : (0:ℝ) < n.toNat := by exact_mod_cast (by omega : 0 < n.toNat)
  have hmean : npMean (List.replicate n.toNat v) = v := by
    unfold npMean
    simp only [List.sum_replicate, List.length_replicate, nsmul_eq_mul]
    field_simp
  refine ⟨r, hr, h1, h2, ?_, ?_, h3.trans hmean, ?_, h5, h6⟩
  · exact (C42_p_value_extremes _ _ _ _ _ hr).1.2 (fun w hw => (List.eq_of_mem_replicate hw).le)
  · refine (C42_t_score _ _ _ _ _ hr).2 (fun a ha b hb => ?_)
    rw [List.eq_of_mem_replicate ha, List.eq_of_mem_replicate hb]
  · rw [h4]
    unfold npStd1
    rw [hmean]
    simp

/-- no randomised evaluation differs: general form for mutual information -/
theorem mi_ignored_resampling (comp : MICalc D G) (extract : List D → Except Exc (List ℝ))
    (R : Resampler D G) (cfg : Settings) (v : ℝ) (hc : ∀ d g, (comp d g).1 = .ok (.scalar v))
    (x y : D) (g : G) (n : Int) (m : String) (hm : m = "permutation_test" ∨ m = "bootstrap") :
    (2 ≤ n → ∃ r, (statisticalTestMI comp extract R cfg (some (.int n)) (some m)
        (freshMI [x, y] g)).1 = .ok r ∧
      r.testValues = List.replicate n.toNat v ∧ r.observed = v ∧ r.pValue = 0 ∧ r.tScore = none) ∧
    (effectiveValMI comp extract R cfg (some m) (freshMI [x, y] g)).1 = .ok 0 := by
  have ht : TotalMI comp := fun d g => ⟨_, hc d g, v, rfl⟩
  have key : ∀ k : Int, 1 ≤ k → ∃ s, statTestMI comp R cfg (some (.int k)) (some m)
      (freshMI [x, y] g : EstObj (MIInner D G) ℝ).inner = (.ok (k, m, List.replicate k.toNat v), s) ∧
      s.data = [x, y] := by
    intro k hk
    have hs : ∃ vs, (statTestMI comp R cfg (some (.int k)) (some m)
        (freshMI [x, y] g : EstObj (MIInner D G) ℝ).inner).1 = .ok (k, m, vs) := by
      unfold statTestMI
      rw [C42_argument_validation]
      simp only [hk, if_true, freshMI, List.length_cons, List.length_nil, ne_eq, not_true_eq_false, if_false]
      unfold testMI
      rcases hm with rfl | rfl
      · simp only [if_true]
        obtain ⟨vs, hvs⟩ := miLoop_total comp R.permute ht k.toNat ⟨[x, y], some [x, y], g⟩ x y rfl
        cases hl : miLoop comp R.permute k.toNat (⟨[x, y], some [x, y], g⟩ : MIInner D G) with
        | mk r s1 => rw [hl] at hvs; cases r <;> cases hvs; exact ⟨_, rfl⟩
      · simp only [if_true, show ¬ ("bootstrap" = "permutation_test") from by decide, if_false]
        obtain ⟨vs, hvs⟩ := miLoop_total comp R.choice ht k.toNat ⟨[x, y], some [x, y], g⟩ x y rfl
        cases hl : miLoop comp R.choice k.toNat (⟨[x, y], some [x, y], g⟩ : MIInner D G) with
        | mk r s1 => rw [hl] at hvs; cases r <;> cases hvs; exact ⟨_, rfl⟩
    obtain ⟨vs, hvs⟩ := hs
    obtain ⟨-, hlen, -, -, -, hd⟩ := (statTestMI_spec comp R cfg _ _ _).1 _ _ _ hvs
    have hval := statTestMI_values comp R cfg (some (.int k)) (some m)
      (freshMI [x, y] g : EstObj (MIInner D G) ℝ).inner x y rfl hvs
    have hrep : vs = List.replicate k.toNat v := by
      rw [List.eq_replicate_iff]
      refine ⟨by omega, fun w hw => ?_⟩
      obtain ⟨g', q, h1, h2⟩ := hval w hw
      rw [hc] at h1; cases h1; cases h2; rfl
    subst hrep
    exact ⟨_, Prod.ext hvs rfl, hd⟩
  have hglob : ∀ s : MIInner D G, (EstObj.globalVal (miCode comp extract) (⟨s, none, none⟩ : EstObj (MIInner D G) ℝ)).1 = .ok v := by
    intro s
    unfold EstObj.globalVal EstObj.calculate
    simp only [miCode]
    cases hcc : comp s.data s.rng with
    | mk r g' =>
      have := hc s.data s.rng
      rw [hcc] at this
      cases this
      rfl
  constructor
  · intro hn
    obtain ⟨s, hs, -⟩ := key n (by omega)
    obtain ⟨r, hr, h1, h2, h3, h4, -⟩ := statResult_constant v n hn m
    refine ⟨r, ?_, h1, h2, h3, h4⟩
    unfold statisticalTestMI
    rw [hs]
    simp only [freshMI]
    have := hglob s
    cases hq : EstObj.globalVal (miCode comp extract) (⟨s, none, none⟩ : EstObj (MIInner D G) ℝ) with
    | mk a b => rw [hq] at this; cases this; exact hr
  · obtain ⟨s, hs, -⟩ := key 1 le_rfl
    unfold effectiveValMI
    rw [hs]
    simp only [freshMI]
    have := hglob s
    cases hq : EstObj.globalVal (miCode comp extract) (⟨s, none, none⟩ : EstObj (MIInner D G) ℝ) with
    | mk a b =>
      rw [hq] at this; cases this
      simp

/-- no randomised evaluation differs: general form for transfer entropy -/
theorem te_ignored_resampling (comp : TECalc G) (extract : TEFlags → Except Exc (List ℝ))
    (cfg : Settings) (v : ℝ) (hc : ∀ f g, (comp f g).1 = .ok (.scalar v))
    (g : G) (n : Int) (m : String) (hm : m = "permutation_test" ∨ m = "bootstrap") :
    (2 ≤ n → ∃ r, (statisticalTestTE comp extract cfg (some (.int n)) (some m) (freshTE g)).1 = .ok r ∧
      r.testValues = List.replicate n.toNat v ∧ r.observed = v ∧ r.pValue = 0 ∧ r.tScore = none) ∧
    (effectiveValTE comp extract cfg (some m) (freshTE g)).1 = .ok 0 := by
  have hloop : ∀ (k : Nat) (s : TEInner G), ∃ vs, (teLoop comp k s).1 = .ok vs := by
    intro k
    induction k with
    | zero => intro s; exact ⟨[], rfl⟩
    | succ k ih =>
      intro s
      unfold teLoop
      cases hcc : comp s.flags s.rng with
      | mk r g' =>
        have := hc s.flags s.rng
        rw [hcc] at this; cases this
        simp only
        obtain ⟨vs, hvs⟩ := ih { s with rng := g' }
        cases hl : teLoop comp k { s with rng := g' } with
        | mk r2 s2 => rw [hl] at hvs; cases r2 <;> cases hvs; exact ⟨_, rfl⟩
  have hfl : ∃ f, methodFlags m = some f := by
    rcases hm with rfl | rfl
    · exact ⟨_, rfl⟩
    · exact ⟨_, rfl⟩
  obtain ⟨f, hf⟩ := hfl
  have key : ∀ k : Int, 1 ≤ k → ∃ s, statTestTE comp cfg (some (.int k)) (some m)
      (freshTE g : EstObj (TEInner G) ℝ).inner = (.ok (k, m, List.replicate k.toNat v), s) := by
    intro k hk
    have hs : ∃ vs, (statTestTE comp cfg (some (.int k)) (some m)
        (freshTE g : EstObj (TEInner G) ℝ).inner).1 = .ok (k, m, vs) := by
      unfold statTestTE
      rw [C42_argument_validation]
      simp only [hk, if_true]
      unfold testTE
      rw [hf]
      simp only [freshTE]
      obtain ⟨vs, hvs⟩ := hloop k.toNat ⟨f, g⟩
      have hq := teLoop_values comp k.toNat ⟨f, g⟩ vs hvs
      cases hl : teLoop comp k.toNat (⟨f, g⟩ : TEInner G) with
      | mk r s1 =>
        rw [hl] at hvs
        cases hvs
        simp only
        have : vs.mapM testValue = .ok (vs.map (fun _ => v)) := by
          refine mapM_ok _ fun q hq' => ?_
          obtain ⟨g', hg'⟩ := hq q hq'
          rw [hc] at hg'; cases hg'; rfl
        rw [this]
        exact ⟨_, rfl⟩
    obtain ⟨vs, hvs⟩ := hs
    obtain ⟨-, hlen, -⟩ := (statTestTE_spec comp cfg _ _ _).1 _ _ _ hvs
    obtain ⟨f', -, hval⟩ := statTestTE_values comp cfg (some (.int k)) (some m)
      (freshTE g : EstObj (TEInner G) ℝ).inner hvs
    have hrep : vs = List.replicate k.toNat v := by
      rw [List.eq_replicate_iff]
      refine ⟨by omega, fun w hw => ?_⟩
      obtain ⟨g', q, h1, h2⟩ := hval w hw
      rw [hc] at h1; cases h1; cases h2; rfl
    subst hrep
    exact ⟨_, Prod.ext hvs rfl⟩
  have hglob : ∀ s : TEInner G, (EstObj.globalVal (teCode comp extract) (⟨s, none, none⟩ : EstObj (TEInner G) ℝ)).1 = .ok v := by
    intro s
    unfold EstObj.globalVal EstObj.calculate
    simp only [teCode]
    cases hcc : comp s.flags s.rng with
    | mk r g' =>
      have := hc s.flags s.rng
      rw [hcc] at this
      cases this
      rfl
  constructor
  · intro hn
    obtain ⟨s, hs⟩ := key n (by omega)
    obtain ⟨r, hr, h1, h2, h3, h4, -⟩ := statResult_constant v n hn m
    refine ⟨r, ?_, h1, h2, h3, h4⟩
    unfold statisticalTestTE
    rw [hs]
    simp only [freshTE]
    have := hglob s
    cases hq : EstObj.globalVal (teCode comp extract) (⟨s, none, none⟩ : EstObj (TEInner G) ℝ) with
    | mk a b => rw [hq] at this; cases this; exact hr
  · obtain ⟨s, hs⟩ := key 1 le_rfl
    unfold effectiveValTE
    rw [hs]
    simp only [freshTE]
    have := hglob s
    cases hq : EstObj.globalVal (teCode comp extract) (⟨s, none, none⟩ : EstObj (TEInner G) ℝ) with
    | mk a b =>
      rw [hq] at this; cases this
      simp

end General

/-! ### Discrete estimators -/

section Discrete
variable {G : Type}

theorem selectRows_perm {α : Type} [Inhabited α] (x : List α) (p : List Nat) (hp : p.Perm (List.range x.length)) :
    (selectRows x p).Perm x := by
  unfold selectRows
  refine (hp.map _).trans ?_
  rw [show (List.range x.length).map (fun i => x.getD i default) = x from ?_]
  refine List.ext_getElem (by simp) fun i h1 h2 => ?_
  simp [List.getD_eq_getElem?_getD, h2]

/-- `x'` is a possible outcome of the named resampling of `x`: a rearrangement for the permutation test, a
sample with replacement of the same size for the bootstrap -/
def Resampled {α : Type} (m : String) (x x' : List α) : Prop :=
  x'.length = x.length ∧ (∀ a ∈ x', a ∈ x) ∧ (m = "permutation_test" → x'.Perm x)

theorem resampled_ofMethod {α : Type} [Inhabited α] (R : NpRng G) (m : String) (x : List α) (g : G) :
    Resampled m x ((R.resampler (α := α)).ofMethod m x g).1 := by
  unfold Resampler.ofMethod
  by_cases hm : m = "permutation_test"
  · rw [if_pos hm]
    have hp : (((R.resampler (α := α)).permute x g).1).Perm x := selectRows_perm x _ (R.perm_spec _ _)
    exact ⟨hp.length_eq, fun a ha => hp.mem_iff.1 ha, fun _ => hp⟩
  · rw [if_neg hm]
    refine ⟨?_, ?_, fun h => absurd h hm⟩
    · simp [NpRng.resampler, selectRows, R.choice_len]
    · intro a ha
      simp only [NpRng.resampler, selectRows, List.mem_map] at ha
      obtain ⟨i, hi, rfl⟩ := ha
      have := R.choice_lt _ _ i hi
      rw [List.getD_eq_getElem?_getD, List.getElem?_eq_getElem this]
      simp

/-- **C44** A statistical test of the discrete mutual information of two aligned samples, for every
generator and every outcome: each test value is the mutual information of a rearrangement (permutation
test) or of a sample with replacement of the same size (bootstrap) of the first variable with the
unchanged second variable. -/
theorem C44_discrete_mi_values_are_resampled (R : NpRng G) (xs ys : List Int) (h : xs.length = ys.length)
    (hne : xs ≠ []) (hov : xs.length < 2 ^ 32) (b : Base) (hb : b.Std)
    (extract : List (List Int) → Except Exc (List ℝ)) (cfg : Settings)
    (nT : Option PyArg) (m : Option String) (g : G) (r : StatRes)
    (hr : (statisticalTestMI (discreteMICalc b) extract R.resampler cfg nT m (freshMI [xs, ys] g)).1 = .ok r) :
    r.observed = Spec.mi xs ys / b.ln ∧
    ∀ v ∈ r.testValues, ∃ xs', Resampled r.method xs xs' ∧ v = Spec.mi xs' ys / b.ln := by
  have hval : ∀ xs' : List Int, xs'.length = xs.length → ∀ g : G,
      (discreteMICalc b [xs', ys] g).1 = .ok (.scalar (Spec.mi xs' ys / b.ln)) := by
    intro xs' hl g
    have h1 := mi2dInt_std xs' ys (hl.trans h) (by
      intro h0; subst h0; exact hne (List.length_eq_zero_iff.1 hl.symm)) (by
      rw [hl]
      have : xs.length ^ 2 < (2 ^ 32) ^ 2 := Nat.pow_lt_pow_left hov (by norm_num)
      simpa [← pow_mul] using this) hb
    simp only [discreteMICalc, miGlobal]
    rw [h1]
    rfl
  constructor
  · have hobs := mi_observed (comp := discreteMICalc b) (f := fun d => (discreteMICalc b d g).1) (fun d g' => rfl) _ _ _ _ _ _ _ hr
    rw [hval xs rfl] at hobs
    simp only [meaning, Except.ok.injEq] at hobs
    exact hobs.symm
  · intro v hv
    have hp := statisticalTestMI_parts _ _ _ _ _ _ _ _ hr
    obtain ⟨g', q, h1, h2⟩ := statTestMI_values (discreteMICalc b) R.resampler cfg nT m _ xs ys rfl hp v hv
    have hrs := resampled_ofMethod R r.method xs g'
    rw [hval _ hrs.1] at h1
    cases h1
    cases h2
    exact ⟨_, hrs, rfl⟩

/-- **C44** The same for the discrete conditional mutual information: the condition is never resampled. -/
theorem C44_discrete_cmi_values_are_resampled (R : NpRng G) (xs ys zs : List Int)
    (h : xs.length = ys.length) (h2 : ys.length = zs.length)
    (hne : xs ≠ []) (hov : xs.length < 2 ^ 32) (b : Base) (hb : b.Valid)
    (extract : List (List Int) → Except Exc (List ℝ)) (cfg : Settings)
    (nT : Option PyArg) (m : Option String) (g : G) (r : StatRes)
    (hr : (statisticalTestMI (discreteCMICalc zs b) extract R.resampler cfg nT m (freshMI [xs, ys] g)).1 = .ok r) :
    r.observed = Spec.cmi xs ys zs / b.ln ∧
    ∀ v ∈ r.testValues, ∃ xs', Resampled r.method xs xs' ∧ v = Spec.cmi xs' ys zs / b.ln := by
  have hval : ∀ xs' : List Int, xs'.length = xs.length → ∀ g : G,
      (discreteCMICalc zs b [xs', ys] g).1 = .ok (.scalar (Spec.cmi xs' ys zs / b.ln)) := by
    intro xs' hl g
    have h1 := cmiNdInt_pair xs' ys zs (hl.trans h) h2 (by
      intro h0; subst h0; exact hne (List.length_eq_zero_iff.1 hl.symm)) (by
      rw [hl]
      have : xs.length ^ 2 < (2 ^ 32) ^ 2 := Nat.pow_lt_pow_left hov (by norm_num)
      simpa [← pow_mul] using this) hb
    simp only [discreteCMICalc]
    rw [h1]
    rfl
  constructor
  · have hobs := mi_observed (comp := discreteCMICalc zs b) (f := fun d => (discreteCMICalc zs b d g).1)
      (fun d g' => rfl) _ _ _ _ _ _ _ hr
    rw [hval xs rfl] at hobs
    simp only [meaning, Except.ok.injEq] at hobs
    exact hobs.symm
  · intro v hv
    have hp := statisticalTestMI_parts _ _ _ _ _ _ _ _ hr
    obtain ⟨g', q, h1, h2⟩ := statTestMI_values (discreteCMICalc zs b) R.resampler cfg nT m _ xs ys rfl hp v hv
    have hrs := resampled_ofMethod R r.method xs g'
    rw [hval _ hrs.1] at h1
    cases h1
    cases h2
    exact ⟨_, hrs, rfl⟩

theorem teRandom_lawful (R : NpRng G) {m : String} {f : TEFlags} (hf : methodFlags m = some f) (g : G) :
    (teRandom R f g).Lawful := by
  unfold methodFlags at hf
  refine ⟨?_, ?_, ?_⟩
  · split_ifs at hf <;> cases hf <;> simp [teRandom]
  · intro p hp n
    simp only [teRandom] at hp
    split_ifs at hp
    · cases hp; exact R.perm_spec n g
    · cases hp
  · intro p hp n
    simp only [teRandom] at hp
    split_ifs at hp
    · cases hp; exact ⟨R.choice_len n g, R.choice_lt n g⟩
    · cases hp

/-- **C44** A statistical test of the discrete transfer entropy, for every generator and every outcome:
each test value is `I(future; source history | destination history)` with the source-history rows
rearranged (permutation test) or drawn with replacement (bootstrap), and the destination untouched. -/
theorem C44_discrete_te_values_are_resampled (R : NpRng G) (adv : TEFlags → G → G)
    (source dest : List Int) (l k s : Nat) (hs : 0 < s) (hl : 0 < l)
    (hk : 0 < k) (hm : max k l * s < source.length) (hlen : source.length = dest.length)
    (hov : dest.length < 2 ^ 32) (b : Base) (hb : b.Valid)
    (extract : TEFlags → Except Exc (List ℝ)) (cfg : Settings)
    (nT : Option PyArg) (m : Option String) (g : G) (r : StatRes)
    (hr : (statisticalTestTE (discreteTECalc R adv source dest (teParams l k s) b) extract cfg nT m
      (freshTE g)).1 = .ok r) :
    ∀ v ∈ r.testValues, ∃ rows', Resampled r.method (histRows source dest.length (max k l) s l) rows' ∧
      v = Spec.cmi (futRows dest dest.length (max k l) s) rows' (histRows dest dest.length (max k l) s k) / b.ln := by
  intro v hv
  have hp := statisticalTestTE_parts _ _ _ _ _ _ _ hr
  obtain ⟨f, hf, hval⟩ := statTestTE_values _ _ _ _ _ hp
  obtain ⟨g', q, h1, h2⟩ := hval v hv
  have hlaw := teRandom_lawful R hf g'
  obtain ⟨ff, gg, dd, RR, hR, _, _, _, rfl, rfl, rfl, rfl, hobs, h⟩ :=
    te_value source dest l k s hs hl hk hm hlen hov hb false hlaw
  refine ⟨(srcSel (teRandom R f g') (numRows dest.length (max k l) s)).map (histRow source (max k l) s l),
    ⟨?_, ?_, ?_⟩, ?_⟩
  · simp [histRows, srcSel_length hlaw]
  · intro a ha
    obtain ⟨i, hi, rfl⟩ := List.mem_map.1 ha
    exact List.mem_map_of_mem (List.mem_range.2 (srcSel_lt hlaw _ i hi))
  · intro hperm
    have hfp : (teRandom R f g').permute = some (fun n => (R.perm n g').1) := by
      rw [hperm] at hf
      cases hf
      rfl
    unfold histRows
    refine List.Perm.map _ ?_
    unfold srcSel
    rw [hfp]
    exact R.perm_spec _ _
  · rw [srcRows_eq _ _ _ _ _ hlaw, histRows, futRows, cmi_rows]
    simp only [hSpec, Bool.false_eq_true, if_false] at h
    have h3 : (discreteTECalc R adv source dest (teParams l k s) b f g').1 =
        (discreteTE source dest (teParams l k s) (some (.int 0)) none b false (teRandom R f g')).map .scalar := by
      simp only [discreteTECalc, discreteTE, teInit_zero hlen, bind, Except.bind, teParams, hobs]
      simp only [Bool.false_eq_true, if_false]
      cases combinedTE (logBase b) _ none <;> rfl
    rw [h3, h] at h1
    cases h1
    cases h2
    rfl

/-- the row numbers that the generator in state `g` draws for the named method: a shuffled `0, …, n−1` for the permutation
test, `n` draws with replacement for the bootstrap -/
def drawnRows (R : NpRng G) (m : String) (n : Nat) (g : G) : List Nat :=
  if m = "permutation_test" then (R.perm n g).1 else (R.choice n g).1

/-- **C44** The method decides which draw is made: every test value of the discrete mutual information is the mutual information of the
first variable read at the drawn row numbers – `permutation` for the permutation test, `choice` for the bootstrap –
with the unchanged second variable; the same for the conditional mutual information, with the unchanged condition. -/
theorem C44_discrete_mi_draws (R : NpRng G) (xs ys zs : List Int) (h : xs.length = ys.length) (h2 : ys.length = zs.length)
    (hne : xs ≠ []) (hov : xs.length < 2 ^ 32) (b : Base) (hb : b.Std)
    (extract : List (List Int) → Except Exc (List ℝ)) (cfg : Settings) (nT : Option PyArg) (m : Option String) (g : G) (r : StatRes) :
    ((statisticalTestMI (discreteMICalc b) extract R.resampler cfg nT m (freshMI [xs, ys] g)).1 = .ok r →
      ∀ v ∈ r.testValues, ∃ g', v = Spec.mi ((drawnRows R r.method xs.length g').map (fun i => xs.getD i default)) ys / b.ln) ∧
    ((statisticalTestMI (discreteCMICalc zs b) extract R.resampler cfg nT m (freshMI [xs, ys] g)).1 = .ok r →
      ∀ v ∈ r.testValues, ∃ g',
        v = Spec.cmi ((drawnRows R r.method xs.length g').map (fun i => xs.getD i default)) ys zs / b.ln) := by
  have hsel : ∀ g', ((R.resampler (α := Int)).ofMethod r.method xs g').1 =
      (drawnRows R r.method xs.length g').map (fun i => xs.getD i default) := by
    intro g'
    unfold Resampler.ofMethod drawnRows
    split_ifs <;> rfl
  have hp2 : ∀ xs' : List Int, xs'.length = xs.length → xs' ≠ [] ∧ xs'.length ^ 2 < 2 ^ 64 := by
    intro xs' hl
    refine ⟨fun h0 => ?_, ?_⟩
    · subst h0; exact hne (List.length_eq_zero_iff.1 hl.symm)
    · rw [hl]
      have : xs.length ^ 2 < (2 ^ 32) ^ 2 := Nat.pow_lt_pow_left hov (by norm_num)
      simpa [← pow_mul] using this
  constructor
  · intro hr v hv
    have hp := statisticalTestMI_parts _ _ _ _ _ _ _ _ hr
    obtain ⟨g', q, h1, h2⟩ := statTestMI_values (discreteMICalc b) R.resampler cfg nT m _ xs ys rfl hp v hv
    have hrs := resampled_ofMethod R r.method xs g'
    have e := mi2dInt_std _ ys (hrs.1.trans h) (hp2 _ hrs.1).1 (hp2 _ hrs.1).2 hb
    simp only [discreteMICalc, miGlobal] at h1
    rw [e] at h1
    cases h1
    cases h2
    exact ⟨g', by rw [← hsel]⟩
  · intro hr v hv
    have hp := statisticalTestMI_parts _ _ _ _ _ _ _ _ hr
    obtain ⟨g', q, h1, h3⟩ := statTestMI_values (discreteCMICalc zs b) R.resampler cfg nT m _ xs ys rfl hp v hv
    have hrs := resampled_ofMethod R r.method xs g'
    have e := cmiNdInt_pair _ ys zs (hrs.1.trans h) h2 (hp2 _ hrs.1).1 (hp2 _ hrs.1).2 hb.valid
    simp only [discreteCMICalc] at h1
    rw [e] at h1
    cases h1
    cases h3
    exact ⟨g', by rw [← hsel]⟩

/-- **C44** The same for the discrete transfer entropy: the source-history rows are read at the drawn row numbers. -/
theorem C44_discrete_te_draws (R : NpRng G) (adv : TEFlags → G → G)
    (source dest : List Int) (l k s : Nat) (hs : 0 < s) (hl : 0 < l)
    (hk : 0 < k) (hm : max k l * s < source.length) (hlen : source.length = dest.length)
    (hov : dest.length < 2 ^ 32) (b : Base) (hb : b.Valid)
    (extract : TEFlags → Except Exc (List ℝ)) (cfg : Settings)
    (nT : Option PyArg) (m : Option String) (g : G) (r : StatRes)
    (hr : (statisticalTestTE (discreteTECalc R adv source dest (teParams l k s) b) extract cfg nT m
      (freshTE g)).1 = .ok r) :
    (r.method = "permutation_test" ∨ r.method = "bootstrap") ∧
    ∀ v ∈ r.testValues, ∃ g',
      v = Spec.cmi (futRows dest dest.length (max k l) s)
        ((drawnRows R r.method (numRows dest.length (max k l) s) g').map (histRow source (max k l) s l))
        (histRows dest dest.length (max k l) s k) / b.ln := by
  have hp := statisticalTestTE_parts _ _ _ _ _ _ _ hr
  obtain ⟨f, hf, hval⟩ := statTestTE_values _ _ _ _ _ hp
  have hmeth : r.method = "permutation_test" ∨ r.method = "bootstrap" := by
    unfold methodFlags at hf
    split_ifs at hf with h1 h2
    · exact Or.inl h1
    · exact Or.inr h2
  refine ⟨hmeth, fun v hv => ?_⟩
  obtain ⟨g', q, h1, h2⟩ := hval v hv
  have hlaw := teRandom_lawful R hf g'
  obtain ⟨ff, gg, dd, RR, hR, _, _, _, rfl, rfl, rfl, rfl, hobs, h⟩ :=
    te_value source dest l k s hs hl hk hm hlen hov hb false hlaw
  refine ⟨g', ?_⟩
  have hsel : srcSel (teRandom R f g') (numRows dest.length (max k l) s) =
      drawnRows R r.method (numRows dest.length (max k l) s) g' := by
    rcases hmeth with hm' | hm' <;> rw [hm'] at hf ⊢ <;> cases hf <;> rfl
  rw [← hsel, srcRows_eq _ _ _ _ _ hlaw, histRows, futRows, cmi_rows]
  simp only [hSpec, Bool.false_eq_true, if_false] at h
  have h3 : (discreteTECalc R adv source dest (teParams l k s) b f g').1 =
      (discreteTE source dest (teParams l k s) (some (.int 0)) none b false (teRandom R f g')).map .scalar := by
    simp only [discreteTECalc, discreteTE, teInit_zero hlen, bind, Except.bind, teParams, hobs]
    simp only [Bool.false_eq_true, if_false]
    cases combinedTE (logBase b) _ none <;> rfl
  rw [h3, h] at h1
  cases h1
  cases h2
  rfl

/-- **C44** (negative) Statistical tests of the discrete conditional transfer entropy never randomise
anything: whatever the data, the method, the number of tests and the generator, every test value is the
observed value itself, so the p-value is 0 and the t-score is undefined – for independent data as well –
and the effective value is 0. -/
theorem C44_discrete_cte_test_is_vacuous (source dest cond : List Int) (l k c s : Nat) (hs : 0 < s)
    (hl : 0 < l) (hk : 0 < k) (hc : 0 < c) (hm : max (max k l) c * s < source.length)
    (hlen : source.length = dest.length) (hlen2 : cond.length = dest.length) (hov : dest.length < 2 ^ 32)
    (b : Base) (hb : b.Valid) (extract : TEFlags → Except Exc (List ℝ)) (cfg : Settings) (g : G)
    (n : Int) (m : String) (hmm : m = "permutation_test" ∨ m = "bootstrap") :
    ∃ v, discreteCTE source dest (some cond) (teParams l k s) (.int c) (some (.int 0)) none b = .ok v ∧
    (2 ≤ n → ∃ r, (statisticalTestTE (discreteCTECalc source dest cond (teParams l k s) (.int c) b) extract
        cfg (some (.int n)) (some m) (freshTE g)).1 = .ok r ∧
      r.testValues = List.replicate n.toNat v ∧ r.observed = v ∧ r.pValue = 0 ∧ r.tScore = none) ∧
    (effectiveValTE (discreteCTECalc source dest cond (teParams l k s) (.int c) b) extract cfg (some m)
      (freshTE g)).1 = .ok 0 := by
  obtain ⟨f, gg, d, e, R, hR, _, _, _, _, _, _, _, _, hsl, h⟩ :=
    cte_value source dest cond l k c s hs hl hk hc hm hlen hlen2 hov hb false
  refine ⟨_, h, te_ignored_resampling _ extract cfg _ (fun f' g' => ?_) g n m hmm⟩
  have h3 : (discreteCTECalc source dest cond (teParams l k s) (.int c) b f' g' : _ × G).1 =
        (discreteCTE source dest (some cond) (teParams l k s) (.int c) (some (.int 0)) none b false).map .scalar := by
    simp only [discreteCTECalc, discreteCTE, cteInit_zero hlen hlen2, bind, Except.bind, teParams, hsl]
    simp only [Bool.false_eq_true, if_false]
    cases combinedTE (logBase b) _ none <;> rfl
  rw [h3, h]
  rfl

/-- the hypotheses are met by data whose source drives the destination -/
example : (max (max 1 1) 1 * 1 < [0,1,1,0,1].length) ∧ ([0,1,1,0,1] : List Int).length = [1,0,1,1,0].length := by
  decide

end Discrete

end Verif
