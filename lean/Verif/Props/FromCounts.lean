import Verif.Model.FromCounts
import Verif.Props.Data
import Verif.Props.Bias2
import Verif.Props.CMI

/-! # C70: discrete entropy estimators built from counts -/

namespace Verif

open Spec

/-! ### permutation-invariance of the estimators -/

theorem fcMapM_error {A B : Type} {f : A → Except Exc B} {e : Exc} (l : List A)
    (he : ∀ a ∈ l, ∀ e', f a = .error e' → e' = e) (h : ∃ a ∈ l, ∃ e', f a = .error e') :
    l.mapM f = .error e := by
  induction l with
  | nil => obtain ⟨a, ha, _⟩ := h; cases ha
  | cons x l ih =>
    rw [List.mapM_cons]
    cases hx : f x with
    | error e' => rw [he x (by simp) e' hx]; rfl
    | ok v =>
      have : l.mapM f = .error e := by
        refine ih (fun a ha => he a (by simp [ha])) ?_
        obtain ⟨a, ha, e', h'⟩ := h
        rcases List.mem_cons.1 ha with rfl | ha
        · rw [hx] at h'; cases h'
        · exact ⟨a, ha, e', h'⟩
      rw [this]; rfl

theorem fcMapM_perm {A B : Type} {f : A → Except Exc B} {e : Exc} {l l' : List A} (h : l.Perm l')
    (he : ∀ a e', f a = .error e' → e' = e) :
    (∃ r r', l.mapM f = .ok r ∧ l'.mapM f = .ok r' ∧ r.Perm r') ∨ (l.mapM f = .error e ∧ l'.mapM f = .error e) := by
  classical
  by_cases hall : ∀ a ∈ l, ∃ v, f a = .ok v
  · left
    by_cases hl : l = []
    · subst hl
      have : l' = [] := by simpa using h.symm
      subst this
      exact ⟨[], [], rfl, rfl, .refl _⟩
    · obtain ⟨a0, ha0⟩ := List.exists_mem_of_ne_nil l hl
      obtain ⟨v0, -⟩ := hall a0 ha0
      let g : A → B := fun a => match f a with | .ok v => v | .error _ => v0
      have hg : ∀ a ∈ l, f a = .ok (g a) := by
        intro a ha
        obtain ⟨v, hv⟩ := hall a ha
        simp only [g, hv]
      exact ⟨l.map g, l'.map g, mapM_ok l hg, mapM_ok l' (fun a ha => hg a (h.mem_iff.2 ha)), h.map g⟩
  · right
    push Not at hall
    obtain ⟨a, ha, hv⟩ := hall
    have hx : ∃ e', f a = .error e' := by
      cases hfa : f a with
      | ok v => exact absurd hfa (hv v)
      | error e' => exact ⟨e', rfl⟩
    exact ⟨fcMapM_error l (fun a _ => he a) ⟨a, ha, hx⟩, fcMapM_error l' (fun a _ => he a) ⟨a, h.mem_iff.1 ha, hx⟩⟩

/-- sums over permuted lists -/
theorem fcSum_perm {A C : Type} {f : A → Except Exc ℝ} {e : Exc} {l l' : List A} (h : l.Perm l')
    (he : ∀ a e', f a = .error e' → e' = e) (k : ℝ → Except Exc C) :
    (l.mapM f >>= fun r => k r.sum) = (l'.mapM f >>= fun r => k r.sum) := by
  rcases fcMapM_perm h he with ⟨r, r', h1, h2, h3⟩ | ⟨h1, h2⟩
  · rw [h1, h2]
    simp only [bind, Except.bind, h3.sum_eq]
  · rw [h1, h2]

theorem fcLogBase_err (b : Base) : ∃ e, ∀ x e', logBase b x = .error e' → e' = e := by
  cases b with
  | e =>
    refine ⟨.nonFinite, fun x e' h => ?_⟩
    simp only [logBase, npLog] at h
    split_ifs at h
    cases h; rfl
  | num b =>
    by_cases hb : b < 0
    · refine ⟨.valueError, fun x e' h => ?_⟩
      have h2 : b ≠ 2 := by linarith
      have h10 : b ≠ 10 := by linarith
      have h0 : b ≠ 0 := by linarith
      simp only [logBase, if_neg h2, if_neg h10, if_neg h0, if_pos hb] at h
      cases h; rfl
    · refine ⟨.nonFinite, fun x e' h => ?_⟩
      simp only [logBase, npLog, if_neg hb] at h
      split_ifs at h <;> cases h <;> rfl

theorem fcNpLog_err (x : ℝ) (e' : Exc) (h : npLog x = .error e') : e' = .nonFinite := by
  simp only [npLog] at h
  split_ifs at h
  cases h; rfl

theorem fcNpDiv_err (x y : ℝ) (e' : Exc) (h : npDiv x y = .error e') : e' = .nonFinite := by
  simp only [npDiv] at h
  split_ifs at h
  cases h; rfl

theorem fcNpDigamma_err (n : Int) (e' : Exc) (h : npDigamma n = .error e') : e' = .nonFinite := by
  simp only [npDigamma] at h
  split_ifs at h
  cases h; rfl

/-- terms `p * log p` -/
theorem fcTerm_err (b : Base) : ∃ e, ∀ x e', (do let l ← logBase b x; pure (x * l) : Except Exc ℝ) = .error e' → e' = e := by
  obtain ⟨e, he⟩ := fcLogBase_err b
  refine ⟨e, fun x e' h => ?_⟩
  cases hl : logBase b x with
  | ok v => rw [hl] at h; cases h
  | error e2 => rw [hl] at h; cases h; exact he x _ hl

/-- same table of counts: everything the global values look at -/
structure SameTable {α β : Type} (d : DiscreteData α) (d' : DiscreteData β) : Prop where
  counts : d.counts.Perm d'.counts
  N : d.N = d'.N
  K : d.K = d'.K

variable {α β : Type} {d : DiscreteData α} {d' : DiscreteData β}

theorem SameTable.probs (h : SameTable d d') : d.probabilities.Perm d'.probabilities := by
  simp only [DiscreteData.probabilities, h.N]
  exact h.counts.map _

theorem SameTable.countEq (h : SameTable d d') (v : Int) : countEq d v = countEq d' v :=
  h.counts.countP_eq _

theorem SameTable.discrete (h : SameTable d d') (b : Base) : discreteSimple b d = discreteSimple b d' := by
  obtain ⟨e, he⟩ := fcTerm_err b
  exact fcSum_perm h.probs he (fun s => pure (- s))

theorem SameTable.mm (h : SameTable d d') (b : Base) : mmSimple b d = mmSimple b d' := by
  simp only [mmSimple, mmFactor, h.discrete b, h.K, h.N]

theorem SameTable.chaoShen (h : SameTable d d') (b : Base) : chaoShenSimple b d = chaoShenSimple b d' := by
  have hc : csCoverage d = csCoverage d' := by simp only [csCoverage, h.countEq, h.N]
  simp only [chaoShenSimple, hc, h.N]
  refine fcSum_perm (e := .nonFinite) h.probs (fun p e' he => ?_) (fun s => scaleBase b (- s))
  cases hl : npLog (csCoverage d' * p) with
  | ok v => rw [hl] at he; exact fcNpDiv_err _ _ _ he
  | error e2 => rw [hl] at he; cases he; exact fcNpLog_err _ _ hl

theorem SameTable.cwj (h : SameTable d d') (b : Base) : cwjSimple b d = cwjSimple b d' := by
  have ha : cwjA d = cwjA d' := by simp only [cwjA, h.countEq, h.N]
  have hc : cwjCorrection d = cwjCorrection d' := by simp only [cwjCorrection, ha, h.countEq, h.N]
  simp only [cwjSimple, ha, hc, h.countEq, h.N]
  cases npDigamma d'.N with
  | error e => rfl
  | ok ψ =>
    simp only [bind, Except.bind]
    refine fcSum_perm (e := .nonFinite) (h.counts.filter _) (fun c e' he => ?_)
      (fun s => scaleBase b (if cwjA d' ≠ 1 ∧ 0 < Verif.countEq d' 1 then s / (d'.N : ℝ) + cwjCorrection d' else s / (d'.N : ℝ)))
    cases hl : npDigamma c with
    | ok v => rw [hl] at he; cases he
    | error e2 => rw [hl] at he; cases he; exact fcNpDigamma_err _ _ hl

theorem fcLambda_perm (N : Int) {u u' : List ℝ} (h : u.Perm u') (t : ℝ) : shrinkLambda N u t = shrinkLambda N u' t := by
  simp only [shrinkLambda, (h.map (fun p : ℝ => p * (1 - p) / ((N : ℝ) - 1))).sum_eq,
    (h.map (fun p : ℝ => (p - t) ^ 2)).sum_eq]

theorem SameTable.shrinkProbs (h : SameTable d d') : (shrinkProbs d).Perm (shrinkProbs d') := by
  simp only [Verif.shrinkProbs, h.K, h.N, fcLambda_perm d'.N h.probs]
  exact h.probs.map _

theorem SameTable.shrink (h : SameTable d d') (b : Base) : shrinkSimple b d = shrinkSimple b d' := by
  obtain ⟨e, he⟩ := fcTerm_err b
  exact fcSum_perm h.shrinkProbs he (fun s => pure (- s))

theorem SameTable.bayes (h : SameTable d d') (al : AlphaArg) (k : Option Nat) (b : Base) :
    bayesSimple al k b d = bayesSimple al k b d' := by
  have hk : bayesK k d = bayesK k d' := by cases k <;> simp [bayesK, h.K]
  simp only [bayesSimple, bayesProbs, hk, h.N]
  cases getAlpha al (bayesK k d') (d'.N : ℝ) with
  | error e => rfl
  | ok a =>
    simp only [bind, Except.bind]
    rcases fcMapM_perm (f := fun c : Int => npDiv ((c : ℝ) + a) ((d'.N : ℝ) + bayesK k d' * a)) h.counts
      (fun c e' he => fcNpDiv_err _ _ _ he) with ⟨r, r', h1, h2, h3⟩ | ⟨h1, h2⟩
    · rw [h1, h2]
      obtain ⟨e, he⟩ := fcTerm_err b
      exact fcSum_perm h3 he (fun s => pure (- s))
    · rw [h1, h2]

theorem fcMin_perm {l l' : List Int} (h : l.Perm l') : minInt l = minInt l' := by
  have key : ∀ (l : List Int) (a : Int), l.foldl min a ≤ a ∧ (∀ x ∈ l, l.foldl min a ≤ x) ∧
      (l.foldl min a = a ∨ l.foldl min a ∈ l) := by
    intro l
    induction l with
    | nil => intro a; simp
    | cons x l ih =>
      intro a
      obtain ⟨h1, h2, h3⟩ := ih (min a x)
      simp only [List.foldl_cons]
      refine ⟨h1.trans (min_le_left _ _), ?_, ?_⟩
      · intro y hy
        rcases List.mem_cons.1 hy with rfl | hy
        · exact h1.trans (min_le_right _ _)
        · exact h2 y hy
      · rcases h3 with h3 | h3
        · rcases min_choice a x with h4 | h4
          · left; rw [h3, h4]
          · right; rw [h3, h4]; simp
        · right; simp [h3]
  have key2 : ∀ (l : List Int), l ≠ [] → minInt l ∈ l ∧ ∀ x ∈ l, minInt l ≤ x := by
    intro l hl
    match l, hl with
    | x :: l, _ =>
      obtain ⟨h1, h2, h3⟩ := key (x :: l) x
      refine ⟨?_, h2⟩
      rcases h3 with h3 | h3
      · show List.foldl min x (x :: l) ∈ _
        rw [h3]; simp
      · exact h3
  by_cases hl : l = []
  · subst hl
    have : l' = [] := by simpa using h.symm
    rw [this]
  · have hl' : l' ≠ [] := by
      rintro rfl
      exact hl (by simpa using h)
    obtain ⟨a1, a2⟩ := key2 l hl
    obtain ⟨b1, b2⟩ := key2 l' hl'
    exact le_antisymm (a2 _ (h.mem_iff.2 b1)) (b2 _ (h.mem_iff.1 a1))

theorem SameTable.zhang (h : SameTable d d') (b : Base) : zhangSimple b d = zhangSimple b d' := by
  have hv : (zhangValid d).Perm (zhangValid d') := by
    simp only [zhangValid, h.N]
    exact h.counts.filter _
  simp only [zhangSimple, hv.length_eq, fcMin_perm hv, h.N]
  rw [(hv.map _).sum_eq]

theorem SameTable.bonachela (h : SameTable d d') (b : Base) : bonachelaSimple b d = bonachelaSimple b d' := by
  simp only [bonachelaSimple, h.N]
  rw [(h.counts.map _).sum_eq]

theorem SameTable.ansb (h : SameTable d d') (k : Option Int) (b : Base) : ansbSimple k b d = ansbSimple k b d' := by
  simp only [ansbSimple, h.N, h.K]

theorem SameTable.nsb (h : SameTable d d') (find : Int → Int → ℝ) (k : Option Int) (b : Base) :
    nsbSimple find k b d = nsbSimple find k b d' := by
  have hk : nsbSupport k d = nsbSupport k d' := by cases k <;> simp [nsbSupport, h.K]
  have h1 : ∀ β K N : ℝ, nsbNegLogRho β K N d.counts = nsbNegLogRho β K N d'.counts := by
    intro β K N
    simp only [nsbNegLogRho, (h.counts.map _).sum_eq]
  have h2 : ∀ β : ℝ, nsbBayes β d.counts = nsbBayes β d'.counts := by
    intro β
    simp only [nsbBayes, h.counts.sum_eq, h.counts.length_eq, (h.counts.map _).sum_eq]
  simp only [nsbSimple, hk, h.N, h1, h2]

theorem SameTable.simple {d d' : DiscreteData Int} (h : SameTable d d') (c : DClass) (hc : c ≠ .grassberger) (b : Base) :
    c.simple b d = c.simple b d' := by
  cases c with
  | discrete => exact h.discrete b
  | millerMadow => exact h.mm b
  | grassberger => exact absurd rfl hc
  | chaoShen => exact h.chaoShen b
  | chaoWangJost => exact h.cwj b
  | shrink => exact h.shrink b
  | bayes a k => exact h.bayes a k b
  | zhang => exact h.zhang b
  | bonachela => exact h.bonachela b
  | ansb k => exact h.ansb k b

/-! ### the theorems -/

theorem fcFromCounts_ok (uniq cs : List Int) (hu : uniq.length = cs.length) (h0 : ∀ c ∈ cs, 0 ≤ c) (hs : cs.sum ≠ 0) :
    DiscreteData.fromCounts uniq (.ints cs) = .ok ⟨uniq, cs, cs.sum, uniq.length, none⟩ := by
  obtain ⟨d, hd⟩ := (C02_from_counts_accepts_iff uniq (.ints cs)).2 ⟨cs, rfl, hu, h0, hs⟩
  obtain ⟨h1, h2, h3, h4, h5, -⟩ := C02_from_counts_fields uniq (.ints cs) d hd
  rw [hd]
  obtain ⟨u, c, N, K, dt⟩ := d
  simp only at h1 h2 h3 h4 h5
  cases h2
  subst h1 h3 h4 h5
  rfl

/-- the counts of the sample, up to order -/
theorem fcCounts_perm (xs : List Int) : (mkData xs).counts.Perm (xs.dedup.map (fun a => ((xs.count a : Nat) : Int))) := by
  rw [mkData_counts]
  have : (npUnique xs).Perm xs.dedup := by
    refine (List.perm_ext_iff_of_nodup (npUnique_nodup xs) (List.nodup_dedup xs)).2 fun a => ?_
    rw [mem_npUnique, List.mem_dedup]
  exact this.map _

theorem fcCounts_sum (xs : List Int) : (xs.dedup.map (fun a => ((xs.count a : Nat) : Int))).sum = (xs.length : Int) := by
  have h := List.sum_map_count_dedup_eq_length xs
  rw [← h]
  induction xs.dedup with
  | nil => rfl
  | cons a l ih => simp [ih]

theorem fcTable (uniq cs xs : List Int) (hu : uniq.length = cs.length)
    (h : cs.Perm (xs.dedup.map (fun a => ((xs.count a : Nat) : Int)))) (hne : xs ≠ []) :
    DiscreteData.fromCounts uniq (.ints cs) = .ok ⟨uniq, cs, cs.sum, uniq.length, none⟩ ∧
    SameTable (⟨uniq, cs, cs.sum, uniq.length, none⟩ : DiscreteData Int) (mkData xs) := by
  have hsum : cs.sum = (xs.length : Int) := h.sum_eq.trans (fcCounts_sum xs)
  refine ⟨fcFromCounts_ok uniq cs hu ?_ ?_, ⟨h.trans (fcCounts_perm xs).symm, hsum, ?_⟩⟩
  · intro c hc
    obtain ⟨a, -, rfl⟩ := List.mem_map.1 (h.mem_iff.1 hc)
    exact Int.natCast_nonneg _
  · rw [hsum]
    have := List.length_pos_iff.2 hne
    omega
  · show uniq.length = _
    have := h.length_eq
    rw [List.length_map] at this
    rw [mkData_K, hu, this, List.card_toFinset]

/-- **C70** For every discrete entropy class except Grassberger's, an estimator built from counts has the
value (or raises the error) of the same estimator built from any sample that has these counts.  The order
of the counts, the labels and the base do not matter; the labels may even repeat. -/
theorem C70_counts_determine_value (c : DClass) (hc : c ≠ .grassberger) (b : Base) (uniq cs xs : List Int)
    (hu : uniq.length = cs.length) (hne : xs ≠ [])
    (h : cs.Perm (xs.dedup.map (fun a => ((xs.count a : Nat) : Int)))) :
    c.fromCounts b uniq (.ints cs) = c.globalVal b [.arr1 xs] := by
  obtain ⟨h1, h2⟩ := fcTable uniq cs xs hu h hne
  have hi : discreteHInit [.arr1 xs] = .ok [mkData xs] := discreteHInit_arr1 hne
  simp only [DClass.fromCounts, DClass.globalVal, h1, hi, bind, Except.bind, entropyDispatch]
  exact h2.simple c hc b

/-- **C70** the same for the NSB estimator -/
theorem C70_counts_determine_nsb (find : Int → Int → ℝ) (K : Option Int) (b : Base) (uniq cs xs : List Int)
    (hu : uniq.length = cs.length) (hne : xs ≠ [])
    (h : cs.Perm (xs.dedup.map (fun a => ((xs.count a : Nat) : Int)))) :
    nsbFromCounts find K b uniq (.ints cs) = nsbEntropy find K b [.arr1 xs] := by
  obtain ⟨h1, h2⟩ := fcTable uniq cs xs hu h hne
  have hi : discreteHInit [.arr1 xs] = .ok [mkData xs] := discreteHInit_arr1 hne
  simp only [nsbFromCounts, nsbEntropy, h1, hi, bind, Except.bind, entropyDispatch]
  exact h2.nsb find K b

/-- **C70** every non-empty list of positive counts is the list of counts of some sample, so the two theorems
above cover all positive counts -/
theorem C70_every_positive_table_is_covered (cs : List Int) (hne : cs ≠ []) (hp : ∀ c ∈ cs, 0 < c) :
    ∃ xs : List Int, xs ≠ [] ∧ cs.Perm (xs.dedup.map (fun a => ((xs.count a : Nat) : Int))) := by
  have key : ∀ cs : List Int, (∀ c ∈ cs, 0 < c) → ∃ xs : List Int, (∀ x ∈ xs, 0 ≤ x ∧ x < cs.length) ∧
      cs.Perm (xs.dedup.map (fun a => ((xs.count a : Nat) : Int))) := by
    intro cs
    induction cs with
    | nil => intro _; exact ⟨[], by simp, by simp⟩
    | cons c cs ih =>
      intro hp
      obtain ⟨xs, hx, h⟩ := ih (fun c hc => hp c (by simp [hc]))
      have hc := hp c (by simp)
      set m : Int := (cs.length : Int) with hm
      have hmx : m ∉ xs := fun hh => by have := hx m hh; omega
      have hc1 : 0 < c.toNat := by omega
      refine ⟨List.replicate c.toNat m ++ xs, ?_, ?_⟩
      · intro x hx'
        rw [List.length_cons]
        rcases List.mem_append.1 hx' with h' | h'
        · have := (List.mem_replicate.1 h').2
          subst this
          push_cast
          omega
        · have := hx x h'
          push_cast
          omega
      · have hperm : (List.replicate c.toNat m ++ xs).dedup.Perm (m :: xs.dedup) := by
          refine (List.perm_ext_iff_of_nodup (List.nodup_dedup _)
            (List.nodup_cons.2 ⟨fun hh => hmx (List.mem_dedup.1 hh), List.nodup_dedup _⟩)).2 fun a => ?_
          simp only [List.mem_dedup, List.mem_append, List.mem_replicate, List.mem_cons]
          constructor
          · rintro (⟨_, rfl⟩ | hh)
            · left; rfl
            · right; exact hh
          · rintro (rfl | hh)
            · left; exact ⟨hc1.ne', rfl⟩
            · right; exact hh
        refine List.Perm.trans ?_ (hperm.map _).symm
        rw [List.map_cons]
        have e1 : ((((List.replicate c.toNat m ++ xs).count m : Nat)) : Int) = c := by
          rw [List.count_append, List.count_replicate_self, List.count_eq_zero_of_not_mem hmx]
          omega
        rw [e1]
        refine List.Perm.cons _ (h.trans (List.Perm.of_eq (List.map_congr_left fun a ha => ?_)))
        have : a ≠ m := fun hh => hmx (hh ▸ List.mem_dedup.1 ha)
        rw [List.count_append, List.count_replicate, if_neg (by simpa using this.symm)]
        simp
  obtain ⟨xs, -, h⟩ := key cs hp
  refine ⟨xs, ?_, h⟩
  rintro rfl
  exact hne (by simpa using h)

example := C70_every_positive_table_is_covered [1, 2] (by decide) (by decide)

/-- **C70** in particular `from_counts(*np.unique(x, return_counts=True))` is the estimator of `x` -/
theorem C70_counts_of_a_sample (c : DClass) (hc : c ≠ .grassberger) (b : Base) (xs : List Int) (hne : xs ≠ []) :
    c.fromCounts b (npUnique xs) (.ints ((npCounts xs).map Int.ofNat)) = c.globalVal b [.arr1 xs] := by
  refine C70_counts_determine_value c hc b _ _ xs ?_ hne (fcCounts_perm xs)
  rw [npCounts_eq]
  simp

example := C70_counts_of_a_sample .zhang (by simp) (.num 2) [5, 7, 5] (by decide)

/-- **C70** labels play no role, not even whether they are distinct: equal labels are not merged -/
theorem C70_labels_irrelevant (c : DClass) (hc : c ≠ .grassberger) (b : Base) (uniq uniq' cs : List Int)
    (hl : uniq.length = uniq'.length) : c.fromCounts b uniq (.ints cs) = c.fromCounts b uniq' (.ints cs) := by
  by_cases h : uniq.length = cs.length ∧ (∀ c ∈ cs, 0 ≤ c) ∧ cs.sum ≠ 0
  · obtain ⟨h1, h2, h3⟩ := h
    simp only [DClass.fromCounts, fcFromCounts_ok uniq cs h1 h2 h3, fcFromCounts_ok uniq' cs (hl ▸ h1) h2 h3, bind,
      Except.bind, entropyDispatch]
    exact SameTable.simple (d := ⟨uniq, cs, cs.sum, uniq.length, none⟩) (d' := ⟨uniq', cs, cs.sum, uniq'.length, none⟩)
      ⟨.refl _, rfl, hl⟩ c hc b
  · have he : ∀ u : List Int, u.length = uniq.length → DiscreteData.fromCounts u (.ints cs) = .error .valueError := by
      intro u hul
      cases hd : DiscreteData.fromCounts u (.ints cs) with
      | ok d =>
        obtain ⟨cs', h1, h2, h3, h4⟩ := (C02_from_counts_accepts_iff u (.ints cs)).1 ⟨d, hd⟩
        cases h1
        exact absurd ⟨hul ▸ h2, h3, h4⟩ h
      | error e => rw [C02_from_counts_rejects_valueError _ _ _ hd]
    simp only [DClass.fromCounts, he uniq rfl, he uniq' hl.symm]

example := C70_labels_irrelevant .zhang (by simp) (.num 2) [5, 7] [0, 1] [1, 2] rfl

/-- **C70** errors: counts that are not integers, negative, all zero or of another number than the labels are
ValueErrors for every class -/
theorem C70_invalid_counts (c : DClass) (b : Base) (uniq : List Int) (counts : CountArr)
    (h : ¬ ∃ cs : List Int, counts = .ints cs ∧ uniq.length = cs.length ∧ (∀ c ∈ cs, 0 ≤ c) ∧ cs.sum ≠ 0) :
    c.fromCounts b uniq counts = .error .valueError ∧ c.fromCountsLocal b uniq counts = .error .valueError := by
  have : DiscreteData.fromCounts uniq counts = .error .valueError := by
    cases hd : DiscreteData.fromCounts uniq counts with
    | ok d => exact absurd ((C02_from_counts_accepts_iff uniq counts).1 ⟨d, hd⟩) h
    | error e => rw [C02_from_counts_rejects_valueError _ _ _ hd]
  simp only [DClass.fromCounts, DClass.fromCountsLocal, this, bind, Except.bind, and_self]

/-- **C70** Grassberger's estimator iterates over the sample, which an object built from counts does not have:
every accepted table of counts ends in a TypeError -/
theorem C70_grassberger_needs_the_sample (b : Base) (uniq cs : List Int) (hu : uniq.length = cs.length)
    (h0 : ∀ c ∈ cs, 0 ≤ c) (hs : cs.sum ≠ 0) :
    DClass.grassberger.fromCounts b uniq (.ints cs) = .error .typeError := by
  simp only [DClass.fromCounts, fcFromCounts_ok uniq cs hu h0 hs, bind, Except.bind, entropyDispatch, DClass.simple,
    grassbergerSimple, grassbergerLocal, DiscreteData.samples, Except.map]

/-- **C70** Local values from counts: an exception of the global value is raised again; otherwise (a number, `nan` or infinity) the
classes with local values end in a TypeError because there is no sample, Chao–Shen and Bayes have none (UnsupportedOperation) and the
others refuse (TheoreticalInconsistencyError).  So no class ever returns local values from counts. -/
theorem C70_local_values_need_the_sample (c : DClass) (b : Base) (uniq cs : List Int) (hu : uniq.length = cs.length)
    (h0 : ∀ c ∈ cs, 0 ≤ c) (hs : cs.sum ≠ 0) :
    c.fromCountsLocal b uniq (.ints cs) =
      match c.fromCounts b uniq (.ints cs), c with
      | .error .nonFinite, .chaoShen | .error .nonFinite, .bayes _ _ | .ok _, .chaoShen | .ok _, .bayes _ _ =>
        .error .unsupportedOperation
      | .error .nonFinite, .chaoWangJost | .error .nonFinite, .bonachela | .error .nonFinite, .ansb _
      | .ok _, .chaoWangJost | .ok _, .bonachela | .ok _, .ansb _ => .error .theoreticalInconsistency
      | .error .nonFinite, _ | .ok _, _ => .error .typeError
      | .error e, _ => .error e := by
  cases c <;>
  · simp only [DClass.fromCounts, DClass.fromCountsLocal, fcFromCounts_ok uniq cs hu h0 hs, bind, Except.bind]
    rcases hg : entropyDispatch _ _ _ with e | v <;> (try cases e) <;>
      simp [DClass.localVals, discreteLocal, millerMadowH, mmLocal, shrinkH, shrinkLocal, zhangH, zhangLocal, grassbergerH,
        grassbergerLocal, chaoShenH, chaoWangJostH, bayesH, bonachelaH, ansbH, DiscreteData.samples, bind, Except.bind]

example := C70_local_values_need_the_sample .zhang (.num 2) [5, 7] [1, 2] rfl (by decide) (by decide)

/-- **C70** A zero count makes the plug-in, Miller–Madow and Chao–Shen values `nan`. -/
theorem C70_zero_count_is_nan (c : DClass) (hc : c = .discrete ∨ c = .millerMadow ∨ c = .chaoShen) {b : Base}
    (hb : b.Valid) (uniq cs : List Int) (hu : uniq.length = cs.length) (h0 : ∀ c ∈ cs, 0 ≤ c) (hs : cs.sum ≠ 0)
    (hz : (0 : Int) ∈ cs) : c.fromCounts b uniq (.ints cs) = .error .nonFinite := by
  have hN : (0 : ℝ) < ((cs.sum : Int) : ℝ) := by
    have := List.sum_nonneg h0
    exact_mod_cast lt_of_le_of_ne this hs.symm
  have hm : (0 : ℝ) ∈ (⟨uniq, cs, cs.sum, uniq.length, none⟩ : DiscreteData Int).probabilities := by
    simp only [DiscreteData.probabilities]
    exact List.mem_map.2 ⟨0, hz, by simp⟩
  have herr : ∀ x e', logBase b x = .error e' → e' = .nonFinite := by
    intro x e' h
    cases b with
    | e => exact fcNpLog_err x e' h
    | num b =>
      have hb' : 0 < b ∧ b ≠ 1 := hb
      simp only [logBase, npLog, if_neg hb'.1.ne', if_neg hb'.1.le.not_gt, if_neg hb'.2] at h
      split_ifs at h <;> cases h <;> rfl
  have hlog0 : logBase b 0 = .error .nonFinite := by
    cases b with
    | e => simp [logBase, npLog]
    | num b =>
      have hb' : 0 < b ∧ b ≠ 1 := hb
      simp only [logBase, npLog, if_neg hb'.1.ne', if_neg hb'.1.le.not_gt, if_neg hb'.2, lt_irrefl, if_false, Except.map]
      split_ifs <;> rfl
  have hdisc : discreteSimple b (⟨uniq, cs, cs.sum, uniq.length, none⟩ : DiscreteData Int) = .error .nonFinite := by
    unfold discreteSimple
    rw [fcMapM_error (e := .nonFinite) _ ?_ ⟨0, hm, .nonFinite, ?_⟩]
    · rfl
    · intro x _ e' h
      cases hl : logBase b x with
      | ok v => rw [hl] at h; cases h
      | error e2 => rw [hl] at h; cases h; exact herr x _ hl
    · rw [hlog0]; rfl
  simp only [DClass.fromCounts, fcFromCounts_ok uniq cs hu h0 hs, bind, Except.bind, entropyDispatch]
  rcases hc with rfl | rfl | rfl
  · exact hdisc
  · simp only [DClass.simple, mmSimple, hdisc, bind, Except.bind]
  · simp only [DClass.simple, chaoShenSimple]
    rw [fcMapM_error (e := .nonFinite) _ ?_ ⟨0, hm, .nonFinite, ?_⟩]
    · rfl
    · intro x _ e' h
      cases hl : npLog (csCoverage (⟨uniq, cs, cs.sum, uniq.length, none⟩ : DiscreteData Int) * x) with
      | ok v => rw [hl] at h; exact fcNpDiv_err _ _ _ h
      | error e2 => rw [hl] at h; cases h; exact fcNpLog_err _ _ hl
    · simp [npLog, bind, Except.bind]

/-- **C70** Chao–Wang–Jost's and Zhang's estimators ignore symbols with a zero count. -/
theorem C70_zero_counts_ignored (c : DClass) (hc : c = .chaoWangJost ∨ c = .zhang) (b : Base) (uniq uniq' cs : List Int)
    (hu : uniq.length = cs.length) (h0 : ∀ c ∈ cs, 0 ≤ c) (hs : cs.sum ≠ 0)
    (hu' : uniq'.length = (cs.filter (fun n => decide (n ≠ 0))).length) :
    c.fromCounts b uniq (.ints cs) = c.fromCounts b uniq' (.ints (cs.filter (fun n => decide (n ≠ 0)))) := by
  set cs' := cs.filter (fun n => decide (n ≠ 0)) with hcs'
  have hsum : cs'.sum = cs.sum := by
    rw [hcs']
    clear * -
    induction cs with
    | nil => rfl
    | cons x l ih =>
      rw [List.filter_cons]
      by_cases hx : x = 0
      · simp [hx] at ih ⊢; exact ih
      · simp [hx] at ih ⊢; exact ih
  have hff : ∀ p : Int → Bool, (p 0 = false) → cs'.filter p = cs.filter p := by
    intro p hp
    rw [hcs', List.filter_filter]
    refine List.filter_congr fun x _ => ?_
    by_cases hx : x = 0
    · simp [hx, hp]
    · simp [hx]
  have hce : ∀ v : Int, v ≠ 0 → cs'.countP (fun c => decide (c = v)) = cs.countP (fun c => decide (c = v)) := by
    intro v hv
    rw [List.countP_eq_length_filter, List.countP_eq_length_filter, hff _ (by simpa using hv.symm)]
  have h0' : ∀ c ∈ cs', 0 ≤ c := fun c hc => h0 c (List.mem_filter.1 hc).1
  simp only [DClass.fromCounts, fcFromCounts_ok uniq cs hu h0 hs, fcFromCounts_ok uniq' cs' hu' h0' (hsum ▸ hs), bind,
    Except.bind, entropyDispatch, hsum]
  have hc1 : ∀ (u u' : List Int) (v : Int), v ≠ 0 → countEq (⟨u, cs', cs.sum, u.length, none⟩ : DiscreteData Int) v =
      countEq (⟨u', cs, cs.sum, u'.length, none⟩ : DiscreteData Int) v := fun u u' v hv => hce v hv
  have hA : cwjA (⟨uniq', cs', cs.sum, uniq'.length, none⟩ : DiscreteData Int) =
      cwjA (⟨uniq, cs, cs.sum, uniq.length, none⟩ : DiscreteData Int) := by
    simp only [cwjA, hc1 uniq' uniq 1 (by decide), hc1 uniq' uniq 2 (by decide)]
  have hC : cwjCorrection (⟨uniq', cs', cs.sum, uniq'.length, none⟩ : DiscreteData Int) =
      cwjCorrection (⟨uniq, cs, cs.sum, uniq.length, none⟩ : DiscreteData Int) := by
    simp only [cwjCorrection, hA, hc1 uniq' uniq 1 (by decide)]
  have hV : zhangValid (⟨uniq', cs', cs.sum, uniq'.length, none⟩ : DiscreteData Int) =
      zhangValid (⟨uniq, cs, cs.sum, uniq.length, none⟩ : DiscreteData Int) :=
    hff (fun c => decide (0 < c) && decide (c < cs.sum)) (by simp)
  rcases hc with rfl | rfl
  · simp only [DClass.simple, cwjSimple, hA, hC, hc1 uniq' uniq 1 (by decide), hff (fun c => decide (1 ≤ c)) (by decide)]
  · simp only [DClass.simple, zhangSimple, hV]

/-! ### instances -/

/-- counts of 5, 7, 5 in another order and with other labels -/
example : DClass.shrink.fromCounts .e [1, 2] (.ints [1, 2]) = DClass.shrink.globalVal .e [.arr1 [5, 7, 5]] :=
  C70_counts_determine_value .shrink (by simp) .e [1, 2] [1, 2] [5, 7, 5] rfl (by decide) (by decide)

example : nsbFromCounts (fun _ _ => 1) none .e [1, 2] (.ints [1, 2]) = nsbEntropy (fun _ _ => 1) none .e [.arr1 [5, 7, 5]] :=
  C70_counts_determine_nsb _ none .e [1, 2] [1, 2] [5, 7, 5] rfl (by decide) (by decide)

/-- a repeated label: the "sample" 7, 7 gets the entropy of two different symbols -/
example : DClass.discrete.fromCounts .e [7, 7] (.ints [1, 1]) = .ok (Real.log 2) ∧
    DClass.discrete.globalVal .e [.arr1 [7, 7]] = .ok 0 := by
  constructor
  · rw [C70_counts_determine_value .discrete (by simp) .e [7, 7] [1, 1] [0, 1] rfl (by decide) (by decide)]
    simp only [DClass.globalVal, discreteHInit_arr1 (xs := [0, 1]) (by decide), bind, Except.bind, entropyDispatch, DClass.simple]
    rw [discreteSimple_ok (b := .e) trivial, (entropy_eq_log_card_iff ([0, 1] : List Int) (by simp)).2 (by decide)]
    simp [Base.ln]
  · simp only [DClass.globalVal, discreteHInit_arr1 (xs := [7, 7]) (by decide), bind, Except.bind, entropyDispatch, DClass.simple]
    rw [discreteSimple_ok (b := .e) trivial, (entropy_eq_log_card_iff ([7, 7] : List Int) (by simp)).2 (by decide)]
    simp [Base.ln]

/-- a zero count: `nan` for the plug-in estimator, ignored by Zhang's -/
example : DClass.discrete.fromCounts .e [1, 2, 3] (.ints [0, 1, 2]) = .error .nonFinite ∧
    DClass.zhang.fromCounts .e [1, 2, 3] (.ints [0, 1, 2]) = DClass.zhang.fromCounts .e [2, 3] (.ints [1, 2]) :=
  ⟨C70_zero_count_is_nan .discrete (by simp) (by trivial) [1, 2, 3] [0, 1, 2] rfl (by decide) (by decide) (by decide),
   C70_zero_counts_ignored .zhang (by simp) .e [1, 2, 3] [2, 3] [0, 1, 2] rfl (by decide) (by decide) (by decide)⟩

/-- a real number among the counts -/
example : DClass.zhang.fromCounts .e [1, 2] (.floats [1, 2]) = .error .valueError :=
  (C70_invalid_counts .zhang .e [1, 2] (.floats [1, 2]) (by rintro ⟨cs, h, _⟩; cases h)).1

example : DClass.grassberger.fromCounts .e [1, 2] (.ints [1, 2]) = .error .typeError :=
  C70_grassberger_needs_the_sample .e [1, 2] [1, 2] rfl (by decide) (by decide)

end Verif
