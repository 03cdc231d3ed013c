import Verif.Model.EndToEndLocal

/-!
# Lemmas for the local values: an estimator's local values and its value are computed together
-/

namespace Verif

variable {W : World} {e : Est} {l : Except Exc (List ℝ)}

/-- the families whose measures other than entropy are combined from a bias-corrected entropy -/
def biasFams : List Fam := [.grassberger, .chaoShen, .chaoWangJost, .shrink, .zhang, .bonachela, .bayes, .ansb]

theorem pairEntropy (P : Fam → Except Exc ℝ → Except Exc (List ℝ) → Prop)
    (h1 : ∀ args cfg b, args = e.data.map PyData.toKArg → P .kernel (kernelEntropy args cfg b) (kernelEntropyLocal args cfg b))
    (h2 : ∀ args cfg n n' b, args = e.data.map PyData.toKArg → P .metric (klEntropy args cfg n n' b) (klEntropyLocal args cfg n b))
    (h3 : ∀ args p b, args = e.data.map PyData.toOInput → P .ordinal (ordEntropy W.quick args p b) (ordEntropyLocal W.quick args p b))
    (h4 : ∀ f ∈ [Fam.renyi, .tsallis], ∀ val args k q b, args = e.data.map PyData.toKArg →
      P f (expEntropy val args k q b) (expEntropyLocal val args k q b))
    (h5 : ∀ K b xs, e.data.mapM PyData.toEInput = some xs → P .nsb (nsbEntropy W.find K b xs)
      (discreteHLocal (nsbSimple W.find K b) (fun _ => .error .theoreticalInconsistency) xs))
    (h6 : ∀ c b xs, e.dclass = some c → e.data.mapM PyData.toEInput = some xs →
      P e.cls.fam (c.globalVal b xs) (discreteHLocal (c.simple b) (c.localVals b) xs))
    (h : e.entropyLocal W = some l) : ∃ r, e.entropy W = some r ∧ P e.cls.fam r l := by
  unfold Est.entropyLocal at h
  unfold Est.entropy
  simp only [bind, Option.bind_eq_some_iff] at h
  obtain ⟨b, hb, h⟩ := h
  cases hf : e.cls.fam
  case kernel =>
    simp only [hf, Option.bind_eq_some_iff, Option.some.injEq] at h
    obtain ⟨cfg, hc, rfl⟩ := h
    exact ⟨_, by simp [hb, hc], h1 _ _ _ rfl⟩
  case metric =>
    simp only [hf, Option.bind_eq_some_iff, Option.some.injEq] at h
    obtain ⟨k, hk, i, hi, v, hv, p, hp, rfl⟩ := h
    exact ⟨_, by simp only [hb, hk, hi, hv, hp, bind, Option.bind_some]; rfl, h2 _ _ _ _ _ rfl⟩
  case ordinal =>
    simp only [hf, Option.bind_eq_some_iff, Option.some.injEq] at h
    obtain ⟨p, hp, rfl⟩ := h
    exact ⟨_, by simp [hb, hp], h3 _ _ _ rfl⟩
  case renyi =>
    simp only [hf, Option.bind_eq_some_iff, Option.some.injEq] at h
    obtain ⟨k, hk, q, hq, rfl⟩ := h
    exact ⟨_, by simp [hb, hk, hq], h4 _ (by simp) _ _ _ _ _ rfl⟩
  case tsallis =>
    simp only [hf, Option.bind_eq_some_iff, Option.some.injEq] at h
    obtain ⟨k, hk, q, hq, rfl⟩ := h
    exact ⟨_, by simp [hb, hk, hq], h4 _ (by simp) _ _ _ _ _ rfl⟩
  case nsb =>
    simp only [hf, Option.bind_eq_some_iff, Option.some.injEq] at h
    obtain ⟨k, hk, xs, hx, rfl⟩ := h
    exact ⟨_, by simp [hb, hk, hx], h5 _ _ _ hx⟩
  all_goals
    simp only [hf, Option.bind_eq_some_iff, Option.some.injEq] at h
    obtain ⟨c, hc, xs, hx, rfl⟩ := h
    exact ⟨_, by simp [hb, hc, hx], hf ▸ h6 _ _ _ hc hx⟩

theorem pairMI (P : Fam → Except Exc ℝ → Except Exc (List ℝ) → Prop)
    (h0 : ∀ xs o b, P .discrete (discreteMI (.all1D xs) o b false)
      (afterGlobal (discreteMI (.all1D xs) o b false) (discreteMILocal xs o b false)))
    (h0' : ∀ xs o b, P .millerMadow (discreteMI (.all1D xs) o b true)
      (afterGlobal (discreteMI (.all1D xs) o b true) (discreteMILocal xs o b true)))
    (h1 : ∀ xs o nm cfg b, P .kernel (kernelMI xs o nm cfg b) (kernelMILocal xs o nm cfg b))
    (h2 : ∀ xs o nm cfg n b, P .metric (ksgMI xs o nm cfg n b) (ksgMILocal xs o nm cfg n b))
    (h3 : ∀ xs p o b, P .ordinal (ordMI W.quick xs p o b) (ordMILocal W.quick xs p o b))
    (h4 : ∀ f ∈ [Fam.renyi, .tsallis], ∀ r, P f r (afterGlobal r (.error .unsupportedOperation)))
    (h5 : ∀ K xs o b, P .nsb (nsbMI W.find K xs o b) (nsbMILocal W.find K xs o b))
    (h6 : ∀ c xs o b, e.bclass = some c → P e.cls.fam (biasMI c xs o b) (biasMILocal c xs o b))
    (h : e.miLocals W = some l) : ∃ r, e.mi W = some r ∧ P e.cls.fam r l := by
  unfold Est.miLocals at h
  unfold Est.mi
  simp only [bind, Option.bind_eq_some_iff] at h
  obtain ⟨b, hb, o, ho, h⟩ := h
  cases hf : e.cls.fam
  case discrete =>
    simp only [hf, Option.bind_eq_some_iff, Option.some.injEq] at h
    obtain ⟨xs, hx, rfl⟩ := h
    exact ⟨_, by simp [hb, ho, hx], h0 _ _ _⟩
  case millerMadow =>
    simp only [hf, Option.bind_eq_some_iff, Option.some.injEq] at h
    obtain ⟨xs, hx, rfl⟩ := h
    exact ⟨_, by simp [hb, ho, hx], h0' _ _ _⟩
  case kernel =>
    simp only [hf, Option.bind_eq_some_iff, Option.some.injEq] at h
    obtain ⟨xs, hx, nm, hn, cfg, hc, rfl⟩ := h
    exact ⟨_, by simp [hb, ho, hx, hn, hc], h1 _ _ _ _ _⟩
  case metric =>
    simp only [hf, Option.bind_eq_some_iff, Option.some.injEq] at h
    obtain ⟨xs, hx, nm, hn, cfg, hc, v, hv, rfl⟩ := h
    exact ⟨_, by simp [hb, ho, hx, hn, hc, hv], h2 _ _ _ _ _ _⟩
  case ordinal =>
    simp only [hf, Option.bind_eq_some_iff, Option.some.injEq] at h
    obtain ⟨xs, hx, p, hp, rfl⟩ := h
    exact ⟨_, by simp [hb, ho, hx, hp], h3 _ _ _ _⟩
  case renyi =>
    simp only [hf, Option.bind_eq_some_iff, Option.some.injEq] at h
    obtain ⟨xs, hx, nm, hn, k, hk, q, hq, v, hv, rfl⟩ := h
    exact ⟨_, by simp [hb, ho, hx, hn, hk, hq, hv], h4 _ (by simp) _⟩
  case tsallis =>
    simp only [hf, Option.bind_eq_some_iff, Option.some.injEq] at h
    obtain ⟨xs, hx, nm, hn, k, hk, q, hq, v, hv, rfl⟩ := h
    exact ⟨_, by simp [hb, ho, hx, hn, hk, hq, hv], h4 _ (by simp) _⟩
  case nsb =>
    simp only [hf, Option.bind_eq_some_iff] at h
    obtain ⟨nm, hn, xs, hx, K, hK, h⟩ := h
    cases nm
    · simp only [Bool.false_eq_true, if_false, Option.some.injEq] at h
      subst h
      exact ⟨_, by simp [hb, ho, hx, hn, hK], h5 _ _ _ _⟩
    · simp at h
  all_goals
    simp only [hf, Option.bind_eq_some_iff] at h
    obtain ⟨nm, hn, xs, hx, c, hc, h⟩ := h
    cases nm
    · simp only [Bool.false_eq_true, if_false, Option.some.injEq] at h
      subst h
      exact ⟨_, by simp [hb, ho, hx, hn, hc], hf ▸ h6 _ _ _ _ hc⟩
    · simp at h

theorem pairCMI (P : Fam → Except Exc ℝ → Except Exc (List ℝ) → Prop)
    (h0 : ∀ (xs : List (List Int)) z o b, P .discrete (discreteCMI xs (some (.arr1 z)) o b false)
      (afterGlobal (discreteCMI xs (some (.arr1 z)) o b false) (discreteCMILocal xs (some (.arr1 z)) o b false)))
    (h0' : ∀ (xs : List (List Int)) z o b, P .millerMadow (discreteCMI xs (some (.arr1 z)) o b true)
      (afterGlobal (discreteCMI xs (some (.arr1 z)) o b true) (discreteCMILocal xs (some (.arr1 z)) o b true)))
    (h1 : ∀ xs z o nm cfg b, P .kernel (kernelCMI xs (some z) o nm cfg b) (kernelCMILocal xs (some z) o nm cfg b))
    (h2 : ∀ xs z o nm cfg n n' b, P .metric (ksgCMI xs (some z) o nm cfg n n' b) (ksgCMILocal xs (some z) o nm cfg n n' b))
    (h3 : ∀ xs z p o b, P .ordinal (ordCMI W.quick xs (some z) p o b) (ordCMILocal W.quick xs (some z) p o b))
    (h4 : ∀ f ∈ [Fam.renyi, .tsallis], ∀ r, P f r (afterGlobal r (.error .unsupportedOperation)))
    (h5 : ∀ K xs z o b, P .nsb (nsbCMI W.find K xs z o b) (nsbCMILocal W.find K xs z o b))
    (h6 : ∀ c xs z o b, e.bclass = some c → P e.cls.fam (biasCMI c xs z o b) (biasCMILocal c xs z o b))
    (h : e.cmiLocals W = some l) : ∃ r, e.cmi W = some r ∧ P e.cls.fam r l := by
  unfold Est.cmiLocals at h
  unfold Est.cmi
  simp only [bind, Option.bind_eq_some_iff] at h
  obtain ⟨b, hb, o, ho, zd, hz, h⟩ := h
  cases hf : e.cls.fam
  case discrete =>
    simp only [hf, Option.bind_eq_some_iff, Option.some.injEq] at h
    obtain ⟨xs, hx, z, hz', rfl⟩ := h
    exact ⟨_, by simp [hb, ho, hz, hx, hz'], h0 _ _ _ _⟩
  case millerMadow =>
    simp only [hf, Option.bind_eq_some_iff, Option.some.injEq] at h
    obtain ⟨xs, hx, z, hz', rfl⟩ := h
    exact ⟨_, by simp [hb, ho, hz, hx, hz'], h0' _ _ _ _⟩
  case kernel =>
    simp only [hf, Option.bind_eq_some_iff, Option.some.injEq] at h
    obtain ⟨xs, hx, z, hz', nm, hn, cfg, hc, rfl⟩ := h
    exact ⟨_, by simp [hb, ho, hz, hz', hx, hn, hc], h1 _ _ _ _ _ _⟩
  case metric =>
    simp only [hf, Option.bind_eq_some_iff, Option.some.injEq] at h
    obtain ⟨xs, hx, z, hz', nm, hn, cfg, hc, v, hv, rfl⟩ := h
    exact ⟨_, by simp [hb, ho, hz, hz', hx, hn, hc, hv], h2 _ _ _ _ _ _ _ _⟩
  case ordinal =>
    simp only [hf, Option.bind_eq_some_iff, Option.some.injEq] at h
    obtain ⟨xs, hx, z, hz', p, hp, rfl⟩ := h
    exact ⟨_, by simp [hb, ho, hz, hz', hx, hp], h3 _ _ _ _ _⟩
  case renyi =>
    simp only [hf, Option.bind_eq_some_iff, Option.some.injEq] at h
    obtain ⟨xs, hx, z, hz', nm, hn, k, hk, q, hq, v, hv, rfl⟩ := h
    exact ⟨_, by simp [hb, ho, hz, hz', hx, hn, hk, hq, hv], h4 _ (by simp) _⟩
  case tsallis =>
    simp only [hf, Option.bind_eq_some_iff, Option.some.injEq] at h
    obtain ⟨xs, hx, z, hz', nm, hn, k, hk, q, hq, v, hv, rfl⟩ := h
    exact ⟨_, by simp [hb, ho, hz, hz', hx, hn, hk, hq, hv], h4 _ (by simp) _⟩
  case nsb =>
    simp only [hf, Option.bind_eq_some_iff] at h
    obtain ⟨nm, hn, xs, hx, z, hz', K, hK, h⟩ := h
    cases nm
    · simp only [Bool.false_eq_true, if_false, Option.some.injEq] at h
      subst h
      exact ⟨_, by simp [hb, ho, hz, hz', hx, hn, hK], h5 _ _ _ _ _⟩
    · simp at h
  all_goals
    simp only [hf, Option.bind_eq_some_iff] at h
    obtain ⟨nm, hn, xs, hx, z, hz', c, hc, h⟩ := h
    cases nm
    · simp only [Bool.false_eq_true, if_false, Option.some.injEq] at h
      subst h
      exact ⟨_, by simp [hb, ho, hz, hz', hx, hn, hc], hf ▸ h6 _ _ _ _ _ hc⟩
    · simp at h

theorem pairTE (P : Fam → Except Exc ℝ → Except Exc (List ℝ) → Prop)
    (h0 : ∀ x y p u o b, P .discrete (discreteTE x y p u o b false)
      (afterGlobal (discreteTE x y p u o b false) (discreteTELocal x y p u o b false)))
    (h0' : ∀ x y p u o b, P .millerMadow (discreteTE x y p u o b true)
      (afterGlobal (discreteTE x y p u o b true) (discreteTELocal x y p u o b true)))
    (h1 : ∀ x y p u o cfg b, P .kernel (kernelTE x y p u o cfg b) (kernelTELocal x y p u o cfg b))
    (h2 : ∀ x y p u o cfg n n' b, P .metric (ksgTE x y p u o cfg n n' b) (ksgTELocal x y p u o cfg n n' b))
    (h3 : ∀ x y q u o b, P .ordinal (ordTE W.quick x y q u o b) (ordTELocal W.quick x y q u o b))
    (h4 : ∀ f ∈ [Fam.renyi, .tsallis], ∀ r, P f r (afterGlobal r (.error .unsupportedOperation)))
    (h5 : ∀ K x y p u o b, P .nsb (nsbTE W.find K x y p u o b) (nsbTELocal W.find K x y p u o b))
    (h6 : ∀ c x y p u o b, e.bclass = some c → P e.cls.fam (biasTE c x y p u o b) (biasTELocal c x y p u o b))
    (h : e.teLocals W = some l) : ∃ r, e.teVal W = some r ∧ P e.cls.fam r l := by
  unfold Est.teLocals at h
  unfold Est.teVal
  simp only [bind, Option.bind_eq_some_iff] at h
  obtain ⟨b, hb, u, hu, o, ho, p, hp, h⟩ := h
  cases hf : e.cls.fam
  case discrete =>
    simp only [hf, Option.bind_eq_some_iff, Option.some.injEq] at h
    obtain ⟨d, hd, rfl⟩ := h
    exact ⟨_, by simp [hb, hu, ho, hp, hd], h0 _ _ _ _ _ _⟩
  case millerMadow =>
    simp only [hf, Option.bind_eq_some_iff, Option.some.injEq] at h
    obtain ⟨d, hd, rfl⟩ := h
    exact ⟨_, by simp [hb, hu, ho, hp, hd], h0' _ _ _ _ _ _⟩
  case kernel =>
    simp only [hf, Option.bind_eq_some_iff, Option.some.injEq] at h
    obtain ⟨d, hd, cfg, hc, rfl⟩ := h
    exact ⟨_, by simp [hb, hu, ho, hp, hd, hc], h1 _ _ _ _ _ _ _⟩
  case metric =>
    simp only [hf, Option.bind_eq_some_iff, Option.some.injEq] at h
    obtain ⟨d, hd, cfg, hc, v, hv, rfl⟩ := h
    exact ⟨_, by simp [hb, hu, ho, hp, hd, hc, hv], h2 _ _ _ _ _ _ _ _ _⟩
  case ordinal =>
    simp only [hf, Option.bind_eq_some_iff, Option.some.injEq] at h
    obtain ⟨d, hd, q, hq, rfl⟩ := h
    exact ⟨_, by simp [hb, hu, ho, hp, hd, hq], h3 _ _ _ _ _ _⟩
  case renyi =>
    simp only [hf, Option.bind_eq_some_iff, Option.some.injEq] at h
    obtain ⟨d, hd, k, hk, q, hq, v, hv, rfl⟩ := h
    exact ⟨_, by simp [hb, hu, ho, hp, hd, hk, hq, hv], h4 _ (by simp) _⟩
  case tsallis =>
    simp only [hf, Option.bind_eq_some_iff, Option.some.injEq] at h
    obtain ⟨d, hd, k, hk, q, hq, v, hv, rfl⟩ := h
    exact ⟨_, by simp [hb, hu, ho, hp, hd, hk, hq, hv], h4 _ (by simp) _⟩
  case nsb =>
    simp only [hf, Option.bind_eq_some_iff, Option.some.injEq] at h
    obtain ⟨d, hd, K, hK, rfl⟩ := h
    exact ⟨_, by simp [hb, hu, ho, hp, hd, hK], h5 _ _ _ _ _ _ _⟩
  all_goals
    simp only [hf, Option.bind_eq_some_iff, Option.some.injEq] at h
    obtain ⟨d, hd, c, hc, rfl⟩ := h
    exact ⟨_, by simp [hb, hu, ho, hp, hd, hc], hf ▸ h6 _ _ _ _ _ _ _ hc⟩

theorem pairCTE (P : Fam → Except Exc ℝ → Except Exc (List ℝ) → Prop)
    (h0 : ∀ x y z p m u o b, P .discrete (discreteCTE x y (some z) p m u o b false)
      (afterGlobal (discreteCTE x y (some z) p m u o b false) (discreteCTELocal x y (some z) p m u o b false)))
    (h0' : ∀ x y z p m u o b, P .millerMadow (discreteCTE x y (some z) p m u o b true)
      (afterGlobal (discreteCTE x y (some z) p m u o b true) (discreteCTELocal x y (some z) p m u o b true)))
    (h1 : ∀ x y z p m u o cfg b, P .kernel (kernelCTE x y (some z) p m u o cfg b) (kernelCTELocal x y (some z) p m u o cfg b))
    (h2 : ∀ x y z p m u o cfg n n' n'' b, P .metric (ksgCTE x y (some z) p m u o cfg n n' n'' b)
      (ksgCTELocal x y (some z) p m u o cfg n n' n'' b))
    (h3 : ∀ x y z q u o b, P .ordinal (ordCTE W.quick x y (some z) q u o b) (ordCTELocal W.quick x y (some z) q u o b))
    (h4 : ∀ f ∈ [Fam.renyi, .tsallis], ∀ r, P f r (afterGlobal r (.error .unsupportedOperation)))
    (h5 : ∀ K x y z p m u o b, P .nsb (nsbCTE W.find K x y (some z) p m u o b) (nsbCTELocal W.find K x y (some z) p m u o b))
    (h6 : ∀ c x y z p m u o b, e.bclass = some c →
      P e.cls.fam (biasCTE c x y (some z) p m u o b) (biasCTELocal c x y (some z) p m u o b))
    (h : e.cteLocals W = some l) : ∃ r, e.cteVal W = some r ∧ P e.cls.fam r l := by
  unfold Est.cteLocals at h
  unfold Est.cteVal
  obtain ⟨b, hb, h⟩ := Option.bind_eq_some_iff.1 h
  obtain ⟨u, hu, h⟩ := Option.bind_eq_some_iff.1 h
  obtain ⟨o, ho, h⟩ := Option.bind_eq_some_iff.1 h
  obtain ⟨p, hp, h⟩ := Option.bind_eq_some_iff.1 h
  obtain ⟨m, hm, h⟩ := Option.bind_eq_some_iff.1 h
  obtain ⟨zd, hz, h⟩ := Option.bind_eq_some_iff.1 h
  cases hf : e.cls.fam
  case discrete =>
    simp only [hf, bind, Option.bind_eq_some_iff, Option.some.injEq] at h
    obtain ⟨d, hd, z, hz', rfl⟩ := h
    exact ⟨_, by simp [hb, hu, ho, hp, hm, hz, hd, hz'], h0 _ _ _ _ _ _ _ _⟩
  case millerMadow =>
    simp only [hf, bind, Option.bind_eq_some_iff, Option.some.injEq] at h
    obtain ⟨d, hd, z, hz', rfl⟩ := h
    exact ⟨_, by simp [hb, hu, ho, hp, hm, hz, hd, hz'], h0' _ _ _ _ _ _ _ _⟩
  case kernel =>
    simp only [hf, bind, Option.bind_eq_some_iff, Option.some.injEq] at h
    obtain ⟨d, hd, z, hz', cfg, hc, rfl⟩ := h
    exact ⟨_, by simp [hb, hu, ho, hp, hm, hz, hd, hz', hc], h1 _ _ _ _ _ _ _ _ _⟩
  case metric =>
    simp only [hf, bind, Option.bind_eq_some_iff, Option.some.injEq] at h
    obtain ⟨d, hd, z, hz', cfg, hc, v, hv, rfl⟩ := h
    exact ⟨_, by simp [hb, hu, ho, hp, hm, hz, hd, hz', hc, hv], h2 _ _ _ _ _ _ _ _ _ _ _ _⟩
  case ordinal =>
    simp only [hf, bind, Option.bind_eq_some_iff, Option.some.injEq] at h
    obtain ⟨d, hd, z, hz', q, hq, rfl⟩ := h
    exact ⟨_, by simp [hb, hu, ho, hp, hm, hz, hd, hz', hq], h3 _ _ _ _ _ _ _⟩
  case renyi =>
    simp only [hf, bind, Option.bind_eq_some_iff, Option.some.injEq] at h
    obtain ⟨d, hd, z, hz', k, hk, q, hq, v, hv, rfl⟩ := h
    exact ⟨_, by simp [hb, hu, ho, hp, hm, hz, hd, hz', hk, hq, hv], h4 _ (by simp) _⟩
  case tsallis =>
    simp only [hf, bind, Option.bind_eq_some_iff, Option.some.injEq] at h
    obtain ⟨d, hd, z, hz', k, hk, q, hq, v, hv, rfl⟩ := h
    exact ⟨_, by simp [hb, hu, ho, hp, hm, hz, hd, hz', hk, hq, hv], h4 _ (by simp) _⟩
  case nsb =>
    simp only [hf, bind, Option.bind_eq_some_iff, Option.some.injEq] at h
    obtain ⟨d, hd, z, hz', K, hK, rfl⟩ := h
    exact ⟨_, by simp [hb, hu, ho, hp, hm, hz, hd, hz', hK], h5 _ _ _ _ _ _ _ _ _⟩
  all_goals
    simp only [hf, bind, Option.bind_eq_some_iff, Option.some.injEq] at h
    obtain ⟨d, hd, z, hz', c, hc, rfl⟩ := h
    exact ⟨_, by simp [hb, hu, ho, hp, hm, hz, hd, hz', hc], hf ▸ h6 _ _ _ _ _ _ _ _ _ hc⟩

end Verif
