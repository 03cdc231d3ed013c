import Verif.Props.EndToEnd3
import Verif.Props.EndToEnd4

/-!
# C82: the propagation time, for every family of transfer-entropy estimators

Concrete calls that meet the hypotheses are in `Props/EndToEndEx.lean`.
-/

namespace Verif

open Spec

variable {W : World} {a : PyName} {kw kw' : Kw} {cond : CondKw PyData} {f : Fam} {p : Int} {s : Nat}

/-- the constructor shifts the series by the propagation time -/
theorem teInit_lag {α : Type} (x y : List α) (h : x.length = y.length) (p : Int) (s : Nat) (hs : 0 < s)
    {u o : Option PyArg} (hl : (u = some (.int p) ∧ o = none) ∨ (u = some (.int 0) ∧ o = some (.int p))) :
    teInit x y u o (.int s) = .ok (lagSource p s x, lagDest p s y) := by
  have hofs : teInit x y u o (.int s) = teInit x y (some (.int p)) none (.int s) := by
    rcases hl with ⟨rfl, rfl⟩ | ⟨rfl, rfl⟩
    · rfl
    · by_cases h0 : p = 0
      · subst h0; simp [teInit]
      · simp [teInit, h0]
  rw [hofs]
  rcases Int.lt_trichotomy p 0 with hp | rfl | hp
  · obtain ⟨n, hn⟩ := Int.eq_ofNat_of_zero_le (by omega : 0 ≤ -p)
    obtain rfl : p = -(n : Int) := by omega
    have hn0 : 0 < n := by omega
    have hns : 0 < n * s := Nat.mul_pos hn0 hs
    have e1 : - -(n : Int) * s = ((n * s : ℕ) : Int) := by push_cast; ring
    have e2 : -(n : Int) * s = -((n * s : ℕ) : Int) := by push_cast; ring
    have h1 : ¬ (-(n : Int) = 0) := by omega
    have h2 : ¬ (0 < -(n : Int)) := by omega
    have h3 : ¬ (0 ≤ -(n : Int)) := by omega
    simp only [teInit, not_true_eq_false, if_false, h, ne_eq, h1, h2, e1, e2, pySlice_start,
      pySlice_stop_neg _ _ hns, lagSource, lagDest, h3, Int.natAbs_neg, Int.natAbs_natCast]
  · simp [teInit, h, lagSource, lagDest]
  · obtain ⟨n, rfl⟩ := Int.eq_ofNat_of_zero_le hp.le
    have hn0 : 0 < n := by omega
    have hns : 0 < n * s := Nat.mul_pos hn0 hs
    have e1 : (n : Int) * s = ((n * s : ℕ) : Int) := by push_cast; ring
    have e2 : -(n : Int) * s = -((n * s : ℕ) : Int) := by push_cast; ring
    have h1 : ¬ ((n : Int) = 0) := by omega
    simp only [teInit, not_true_eq_false, if_false, h, ne_eq, h1, hp, hp.le, if_true, e1, e2, pySlice_start,
      pySlice_stop_neg _ _ hns, lagSource, lagDest, Int.natAbs_natCast]

theorem lag_length {α : Type} (x y : List α) (h : x.length = y.length) (p : Int) (s : Nat) :
    (lagSource p s x).length = (lagDest p s y).length := by
  unfold lagSource lagDest
  split_ifs <;> simp [h]

theorem Lag.kwOr (h : Lag kw kw' p s) (r : String) (d : PyVal) (h1 : r ≠ "prop_time") (h2 : r ≠ "offset") :
    kwOr kw' r d = Verif.kwOr kw r d := by unfold Verif.kwOr; rw [h.same r h1 h2]

theorem Lag.only (h : Lag kw kw' p s) {l : List String} (ho : Only l kw) : Only l kw' := by
  intro r hr
  by_cases h1 : r = "prop_time"
  · rw [h1, h.noProp] at hr; exact absurd rfl hr
  by_cases h2 : r = "offset"
  · rw [h2, h.noOffset] at hr; exact absurd rfl hr
  exact ho r (by rw [← h.same r h1 h2]; exact hr)

/-- the lag as the estimators read it -/
theorem Lag.args (h : Lag kw kw' p s) : ∃ u o, (Verif.kwOr kw "prop_time" (.int 0)).toOptArg = some u ∧
    (Verif.kwOr kw "offset" .none).toOptArg = some o ∧
    ((u = some (.int p) ∧ o = none) ∨ (u = some (.int 0) ∧ o = some (.int p))) := by
  rcases h.lag with ⟨h1, h2⟩ | ⟨h1, h2⟩
  · exact ⟨_, _, by rw [h1]; rfl, by rw [h2]; rfl, .inl ⟨rfl, rfl⟩⟩
  · exact ⟨_, _, by rw [h1]; rfl, by rw [h2]; rfl, .inr ⟨rfl, rfl⟩⟩

/-- **C82** Transfer entropy with a propagation time `p` (given as `prop_time` or as `offset`; positive or negative) is the same call
without it on the series shifted by `p · step_size` samples: every family for integer data. -/
theorem C82_te_lag_discrete (hf : f ∈ discreteFams) (hn : Names W.lower .te a f) (hacc : Only (acceptedKw W.b0 ⟨.te, f⟩) kw)
    (hr : Readable W f kw) (hc : cond.isVal = false) (hs : 0 < s) (hlag : Lag kw kw' p s) (x y : List Int) (hxy : x.length = y.length) :
    imTE W [.ints x, .ints y] a cond kw = imTE W [.ints (lagSource p s x), .ints (lagDest p s y)] a cond kw' := by
  obtain ⟨⟨b, hbase⟩, ⟨sh, hsh⟩, ⟨dh, hdh⟩, _, hown⟩ := hr
  obtain ⟨u, o, h_u, h_o, huo⟩ := hlag.args
  have h_s : (kwOr kw "step_size" (.int 1)).toArg = some (.int s) := by rw [hlag.step]; rfl
  have g_u : (kwOr kw' "prop_time" (.int 0)).toOptArg = some (some (.int 0)) := by simp only [kwOr, hlag.noProp]; rfl
  have g_o : (kwOr kw' "offset" .none).toOptArg = some none := by simp only [kwOr, hlag.noOffset]; rfl
  have g_s : (kwOr kw' "step_size" (.int 1)).toArg = some (.int s) := by rw [hlag.kwOr _ _ (by decide) (by decide)]; exact h_s
  have gsh : (kwOr kw' "src_hist_len" (.int 1)).toArg = some sh := by rw [hlag.kwOr _ _ (by decide) (by decide)]; exact hsh
  have gdh : (kwOr kw' "dest_hist_len" (.int 1)).toArg = some dh := by rw [hlag.kwOr _ _ (by decide) (by decide)]; exact hdh
  have gbase : (kwOr kw' "base" W.b0).toBase = some b := by rw [hlag.kwOr _ _ (by decide) (by decide)]; exact hbase
  have i1 := teInit_lag x y hxy p s hs huo
  have i2 := teInit_zero (lag_length x y hxy p s) (.int s)
  cases f with
  | discrete =>
    rw [e2e_te_discrete hc hn hacc  h_u h_s hsh hdh h_o hbase (x := x) (y := y) rfl rfl,
      e2e_te_discrete hc hn (hlag.only hacc)  g_u g_s gsh gdh g_o gbase (x := lagSource p s x) (y := lagDest p s y) rfl rfl]
    simp only [discreteTE, i1, i2, bind, Except.bind]
  | millerMadow =>
    rw [e2e_te_millerMadow hc hn hacc  h_u h_s hsh hdh h_o hbase (x := x) (y := y) rfl rfl,
      e2e_te_millerMadow hc hn (hlag.only hacc)  g_u g_s gsh gdh g_o gbase (x := lagSource p s x) (y := lagDest p s y) rfl rfl]
    simp only [discreteTE, i1, i2, bind, Except.bind]
  | grassberger =>
    rw [e2e_te_grassberger hc hn hacc  h_u h_s hsh hdh h_o hbase (x := x) (y := y) rfl rfl,
      e2e_te_grassberger hc hn (hlag.only hacc)  g_u g_s gsh gdh g_o gbase (x := lagSource p s x) (y := lagDest p s y) rfl rfl]
    simp only [biasTE, genericTE, i1, i2, bind, Except.bind]
  | chaoShen =>
    rw [e2e_te_chaoShen hc hn hacc  h_u h_s hsh hdh h_o hbase (x := x) (y := y) rfl rfl,
      e2e_te_chaoShen hc hn (hlag.only hacc)  g_u g_s gsh gdh g_o gbase (x := lagSource p s x) (y := lagDest p s y) rfl rfl]
    simp only [biasTE, genericTE, i1, i2, bind, Except.bind]
  | chaoWangJost =>
    rw [e2e_te_chaoWangJost hc hn hacc  h_u h_s hsh hdh h_o hbase (x := x) (y := y) rfl rfl,
      e2e_te_chaoWangJost hc hn (hlag.only hacc)  g_u g_s gsh gdh g_o gbase (x := lagSource p s x) (y := lagDest p s y) rfl rfl]
    simp only [biasTE, genericTE, i1, i2, bind, Except.bind]
  | shrink =>
    rw [e2e_te_shrink hc hn hacc  h_u h_s hsh hdh h_o hbase (x := x) (y := y) rfl rfl,
      e2e_te_shrink hc hn (hlag.only hacc)  g_u g_s gsh gdh g_o gbase (x := lagSource p s x) (y := lagDest p s y) rfl rfl]
    simp only [biasTE, genericTE, i1, i2, bind, Except.bind]
  | zhang =>
    rw [e2e_te_zhang hc hn hacc  h_u h_s hsh hdh h_o hbase (x := x) (y := y) rfl rfl,
      e2e_te_zhang hc hn (hlag.only hacc)  g_u g_s gsh gdh g_o gbase (x := lagSource p s x) (y := lagDest p s y) rfl rfl]
    simp only [biasTE, genericTE, i1, i2, bind, Except.bind]
  | bonachela =>
    rw [e2e_te_bonachela hc hn hacc  h_u h_s hsh hdh h_o hbase (x := x) (y := y) rfl rfl,
      e2e_te_bonachela hc hn (hlag.only hacc)  g_u g_s gsh gdh g_o gbase (x := lagSource p s x) (y := lagDest p s y) rfl rfl]
    simp only [biasTE, genericTE, i1, i2, bind, Except.bind]
  | bayes =>
    obtain ⟨⟨_, h_alpha⟩, ⟨_, h_K⟩⟩ := hown
    rw [e2e_te_bayes hc hn hacc h_alpha h_K h_u h_s hsh hdh h_o hbase (x := x) (y := y) rfl rfl,
      e2e_te_bayes hc hn (hlag.only hacc) (by rw [hlag.same _ (by decide) (by decide)]; exact h_alpha) (by rw [hlag.kwOr _ _ (by decide) (by decide)]; exact h_K) g_u g_s gsh gdh g_o gbase (x := lagSource p s x) (y := lagDest p s y) rfl rfl]
    simp only [biasTE, genericTE, i1, i2, bind, Except.bind]
  | ansb =>
    obtain ⟨_, h_us⟩ := hown
    rw [e2e_te_ansb hc hn hacc h_us h_u h_s hsh hdh h_o hbase (x := x) (y := y) rfl rfl,
      e2e_te_ansb hc hn (hlag.only hacc) (by rw [hlag.kwOr _ _ (by decide) (by decide)]; exact h_us) g_u g_s gsh gdh g_o gbase (x := lagSource p s x) (y := lagDest p s y) rfl rfl]
    simp only [biasTE, genericTE, i1, i2, bind, Except.bind]
  | nsb =>
    obtain ⟨_, h_K⟩ := hown
    rw [e2e_te_nsb hc hn hacc h_K h_u h_s hsh hdh h_o hbase (x := x) (y := y) rfl rfl,
      e2e_te_nsb hc hn (hlag.only hacc) (by rw [hlag.kwOr _ _ (by decide) (by decide)]; exact h_K) g_u g_s gsh gdh g_o gbase (x := lagSource p s x) (y := lagDest p s y) rfl rfl]
    simp only [nsbTE, genericTE, i1, i2, bind, Except.bind]
  | ordinal => simp [discreteFams] at hf
  | kernel => simp [discreteFams] at hf
  | metric => simp [discreteFams] at hf
  | renyi => simp [discreteFams] at hf
  | tsallis => simp [discreteFams] at hf

/-- **C82** Transfer entropy with a propagation time `p` (given as `prop_time` or as `offset`; positive or negative) is the same call
without it on the series shifted by `p · step_size` samples: every family for real data. -/
theorem C82_te_lag_continuous (hf : f ∈ continuousFams) (hn : Names W.lower .te a f) (hacc : Only (acceptedKw W.b0 ⟨.te, f⟩) kw)
    (hr : Readable W f kw) (hc : cond.isVal = false) (hs : 0 < s) (hlag : Lag kw kw' p s) (x y : List ℝ) (hxy : x.length = y.length) :
    imTE W [.reals x, .reals y] a cond kw = imTE W [.reals (lagSource p s x), .reals (lagDest p s y)] a cond kw' := by
  obtain ⟨⟨b, hbase⟩, ⟨sh, hsh⟩, ⟨dh, hdh⟩, _, hown⟩ := hr
  obtain ⟨u, o, h_u, h_o, huo⟩ := hlag.args
  have h_s : (kwOr kw "step_size" (.int 1)).toArg = some (.int s) := by rw [hlag.step]; rfl
  have g_u : (kwOr kw' "prop_time" (.int 0)).toOptArg = some (some (.int 0)) := by simp only [kwOr, hlag.noProp]; rfl
  have g_o : (kwOr kw' "offset" .none).toOptArg = some none := by simp only [kwOr, hlag.noOffset]; rfl
  have g_s : (kwOr kw' "step_size" (.int 1)).toArg = some (.int s) := by rw [hlag.kwOr _ _ (by decide) (by decide)]; exact h_s
  have gsh : (kwOr kw' "src_hist_len" (.int 1)).toArg = some sh := by rw [hlag.kwOr _ _ (by decide) (by decide)]; exact hsh
  have gdh : (kwOr kw' "dest_hist_len" (.int 1)).toArg = some dh := by rw [hlag.kwOr _ _ (by decide) (by decide)]; exact hdh
  have gbase : (kwOr kw' "base" W.b0).toBase = some b := by rw [hlag.kwOr _ _ (by decide) (by decide)]; exact hbase
  have i1 := teInit_lag x y hxy p s hs huo
  have i2 := teInit_zero (lag_length x y hxy p s) (.int s)
  cases f with
  | discrete => simp [continuousFams] at hf
  | millerMadow => simp [continuousFams] at hf
  | grassberger => simp [continuousFams] at hf
  | chaoShen => simp [continuousFams] at hf
  | chaoWangJost => simp [continuousFams] at hf
  | shrink => simp [continuousFams] at hf
  | zhang => simp [continuousFams] at hf
  | bonachela => simp [continuousFams] at hf
  | bayes => simp [continuousFams] at hf
  | ansb => simp [continuousFams] at hf
  | nsb => simp [continuousFams] at hf
  | ordinal =>
    obtain ⟨⟨_, h_d⟩, ⟨_, h_st⟩⟩ := hown
    rw [e2e_te_ordinal hc hn hacc h_d h_st h_u h_s hsh hdh h_o hbase (x := x) (y := y) rfl rfl,
      e2e_te_ordinal hc hn (hlag.only hacc) (by rw [hlag.same _ (by decide) (by decide)]; exact h_d) (by rw [hlag.kwOr _ _ (by decide) (by decide)]; exact h_st) g_u g_s gsh gdh g_o gbase (x := lagSource p s x) (y := lagDest p s y) rfl rfl]
    simp only [ordTE, i1, i2, bind, Except.bind]
  | kernel =>
    obtain ⟨⟨_, h_h⟩, ⟨_, h_kn⟩, ⟨_, h_w⟩⟩ := hown
    rw [e2e_te_kernel hc hn hacc h_h h_kn h_w h_u h_s hsh hdh h_o hbase (x := x) (y := y) rfl rfl,
      e2e_te_kernel hc hn (hlag.only hacc) (by rw [hlag.kwOr _ _ (by decide) (by decide)]; exact h_h) (by rw [hlag.kwOr _ _ (by decide) (by decide)]; exact h_kn) (by rw [hlag.kwOr _ _ (by decide) (by decide)]; exact h_w) g_u g_s gsh gdh g_o gbase (x := lagSource p s x) (y := lagDest p s y) rfl rfl]
    simp only [kernelTE, kernelTELocal, i1, i2, bind, Except.bind]
  | metric =>
    obtain ⟨⟨_, h_k⟩, ⟨_, h_i⟩, ⟨_, h_v⟩, ⟨_, h_mp⟩⟩ := hown
    rw [e2e_te_metric hc hn hacc h_k h_i h_v h_mp h_u h_s hsh hdh h_o hbase (x := x) (y := y) rfl rfl,
      e2e_te_metric hc hn (hlag.only hacc) (by rw [hlag.kwOr _ _ (by decide) (by decide)]; exact h_k) (by rw [hlag.kwOr _ _ (by decide) (by decide)]; exact h_i) (by rw [hlag.kwOr _ _ (by decide) (by decide)]; exact h_v) (by rw [hlag.kwOr _ _ (by decide) (by decide)]; exact h_mp) g_u g_s gsh gdh g_o gbase (x := lagSource p s x) (y := lagDest p s y) rfl rfl]
    simp only [ksgTE, ksgTELocal, i1, i2, bind, Except.bind]
  | renyi =>
    obtain ⟨⟨_, h_k⟩, ⟨_, h_q⟩, ⟨_, h_v⟩⟩ := hown
    rw [e2e_te_renyi hc hn hacc h_k h_q h_v h_u h_s hsh hdh h_o hbase (x := x) (y := y) rfl rfl,
      e2e_te_renyi hc hn (hlag.only hacc) (by rw [hlag.kwOr _ _ (by decide) (by decide)]; exact h_k) (by rw [hlag.kwOr _ _ (by decide) (by decide)]; exact h_q) (by rw [hlag.kwOr _ _ (by decide) (by decide)]; exact h_v) g_u g_s gsh gdh g_o gbase (x := lagSource p s x) (y := lagDest p s y) rfl rfl]
    simp only [expTE, i1, i2, bind, Except.bind]
  | tsallis =>
    obtain ⟨⟨_, h_k⟩, ⟨_, h_q⟩, ⟨_, h_v⟩⟩ := hown
    rw [e2e_te_tsallis hc hn hacc h_k h_q h_v h_u h_s hsh hdh h_o hbase (x := x) (y := y) rfl rfl,
      e2e_te_tsallis hc hn (hlag.only hacc) (by rw [hlag.kwOr _ _ (by decide) (by decide)]; exact h_k) (by rw [hlag.kwOr _ _ (by decide) (by decide)]; exact h_q) (by rw [hlag.kwOr _ _ (by decide) (by decide)]; exact h_v) g_u g_s gsh gdh g_o gbase (x := lagSource p s x) (y := lagDest p s y) rfl rfl]
    simp only [expTE, i1, i2, bind, Except.bind]

theorem cteInit_lag {α : Type} (x y : List α) (z : List α) {p : Int} (hp : p ≠ 0)
    {u o : Option PyArg} (hl : (u = some (.int p) ∧ o = none) ∨ (u = some (.int 0) ∧ o = some (.int p))) :
    cteInit x y (some z) u o = .error .valueError := by
  unfold cteInit
  rcases hl with ⟨rfl, rfl⟩ | ⟨rfl, rfl⟩ <;> simp [hp]

/-- **C82** A conditional transfer entropy with a propagation time (or an offset) is a ValueError: every family for integer
data. -/
theorem C82_cte_lag_discrete (hf : f ∈ discreteFams) (hn : Names W.lower .cte a f) (hacc : Only (acceptedKw W.b0 ⟨.cte, f⟩) kw)
    (hr : Readable W f kw) (hp : p ≠ 0) (hlag : Lag kw kw' p s) (x y z : List Int) :
    CteIs W (.ints x) (.ints y) a (.ints z) kw (.error .valueError) := by
  obtain ⟨⟨b, hbase⟩, ⟨sh, hsh⟩, ⟨dh, hdh⟩, ⟨ch, hch⟩, hown⟩ := hr
  obtain ⟨u, o, h_u, h_o, huo⟩ := hlag.args
  have h_s : (kwOr kw "step_size" (.int 1)).toArg = some (.int s) := by rw [hlag.step]; rfl
  have i1 := cteInit_lag x y z hp huo
  unfold CteIs
  cases f with
  | discrete =>
    have e := e2e_cte_discrete hn hacc  h_u h_s hsh hdh hch h_o hbase (x := x) (y := y) (dx := .ints x) (dy := .ints y) rfl rfl
      (z := z) (dz := .ints z) rfl
    simp only [discreteCTE, i1, bind, Except.bind] at e
    exact e
  | millerMadow =>
    have e := e2e_cte_millerMadow hn hacc  h_u h_s hsh hdh hch h_o hbase (x := x) (y := y) (dx := .ints x) (dy := .ints y) rfl rfl
      (z := z) (dz := .ints z) rfl
    simp only [discreteCTE, i1, bind, Except.bind] at e
    exact e
  | grassberger =>
    have e := e2e_cte_grassberger hn hacc  h_u h_s hsh hdh hch h_o hbase (x := x) (y := y) (dx := .ints x) (dy := .ints y) rfl rfl
      (z := z) (dz := .ints z) rfl
    simp only [biasCTE, genericCTE, i1, bind, Except.bind] at e
    exact e
  | chaoShen =>
    have e := e2e_cte_chaoShen hn hacc  h_u h_s hsh hdh hch h_o hbase (x := x) (y := y) (dx := .ints x) (dy := .ints y) rfl rfl
      (z := z) (dz := .ints z) rfl
    simp only [biasCTE, genericCTE, i1, bind, Except.bind] at e
    exact e
  | chaoWangJost =>
    have e := e2e_cte_chaoWangJost hn hacc  h_u h_s hsh hdh hch h_o hbase (x := x) (y := y) (dx := .ints x) (dy := .ints y) rfl rfl
      (z := z) (dz := .ints z) rfl
    simp only [biasCTE, genericCTE, i1, bind, Except.bind] at e
    exact e
  | shrink =>
    have e := e2e_cte_shrink hn hacc  h_u h_s hsh hdh hch h_o hbase (x := x) (y := y) (dx := .ints x) (dy := .ints y) rfl rfl
      (z := z) (dz := .ints z) rfl
    simp only [biasCTE, genericCTE, i1, bind, Except.bind] at e
    exact e
  | zhang =>
    have e := e2e_cte_zhang hn hacc  h_u h_s hsh hdh hch h_o hbase (x := x) (y := y) (dx := .ints x) (dy := .ints y) rfl rfl
      (z := z) (dz := .ints z) rfl
    simp only [biasCTE, genericCTE, i1, bind, Except.bind] at e
    exact e
  | bonachela =>
    have e := e2e_cte_bonachela hn hacc  h_u h_s hsh hdh hch h_o hbase (x := x) (y := y) (dx := .ints x) (dy := .ints y) rfl rfl
      (z := z) (dz := .ints z) rfl
    simp only [biasCTE, genericCTE, i1, bind, Except.bind] at e
    exact e
  | bayes =>
    obtain ⟨⟨_, h_alpha⟩, ⟨_, h_K⟩⟩ := hown
    have e := e2e_cte_bayes hn hacc h_alpha h_K h_u h_s hsh hdh hch h_o hbase (x := x) (y := y) (dx := .ints x) (dy := .ints y) rfl rfl
      (z := z) (dz := .ints z) rfl
    simp only [biasCTE, genericCTE, i1, bind, Except.bind] at e
    exact e
  | ansb =>
    obtain ⟨_, h_us⟩ := hown
    have e := e2e_cte_ansb hn hacc h_us h_u h_s hsh hdh hch h_o hbase (x := x) (y := y) (dx := .ints x) (dy := .ints y) rfl rfl
      (z := z) (dz := .ints z) rfl
    simp only [biasCTE, genericCTE, i1, bind, Except.bind] at e
    exact e
  | nsb =>
    obtain ⟨_, h_K⟩ := hown
    have e := e2e_cte_nsb hn hacc h_K h_u h_s hsh hdh hch h_o hbase (x := x) (y := y) (dx := .ints x) (dy := .ints y) rfl rfl
      (z := z) (dz := .ints z) rfl
    simp only [nsbCTE, genericCTE, i1, bind, Except.bind] at e
    exact e
  | ordinal => simp [discreteFams] at hf
  | kernel => simp [discreteFams] at hf
  | metric => simp [discreteFams] at hf
  | renyi => simp [discreteFams] at hf
  | tsallis => simp [discreteFams] at hf

/-- **C82** A conditional transfer entropy with a propagation time (or an offset) is a ValueError: every family for real
data. -/
theorem C82_cte_lag_continuous (hf : f ∈ continuousFams) (hn : Names W.lower .cte a f) (hacc : Only (acceptedKw W.b0 ⟨.cte, f⟩) kw)
    (hr : Readable W f kw) (hp : p ≠ 0) (hlag : Lag kw kw' p s) (x y z : List ℝ) :
    CteIs W (.reals x) (.reals y) a (.reals z) kw (.error .valueError) := by
  obtain ⟨⟨b, hbase⟩, ⟨sh, hsh⟩, ⟨dh, hdh⟩, ⟨ch, hch⟩, hown⟩ := hr
  obtain ⟨u, o, h_u, h_o, huo⟩ := hlag.args
  have h_s : (kwOr kw "step_size" (.int 1)).toArg = some (.int s) := by rw [hlag.step]; rfl
  have i1 := cteInit_lag x y z hp huo
  unfold CteIs
  cases f with
  | discrete => simp [continuousFams] at hf
  | millerMadow => simp [continuousFams] at hf
  | grassberger => simp [continuousFams] at hf
  | chaoShen => simp [continuousFams] at hf
  | chaoWangJost => simp [continuousFams] at hf
  | shrink => simp [continuousFams] at hf
  | zhang => simp [continuousFams] at hf
  | bonachela => simp [continuousFams] at hf
  | bayes => simp [continuousFams] at hf
  | ansb => simp [continuousFams] at hf
  | nsb => simp [continuousFams] at hf
  | ordinal =>
    obtain ⟨⟨_, h_d⟩, ⟨_, h_st⟩⟩ := hown
    have e := e2e_cte_ordinal hn hacc h_d h_st h_u h_s hsh hdh hch h_o hbase (x := x) (y := y) (dx := .reals x) (dy := .reals y) rfl rfl
      (z := z) (dz := .reals z) rfl
    simp only [ordCTE, i1, bind, Except.bind] at e
    exact e
  | kernel =>
    obtain ⟨⟨_, h_h⟩, ⟨_, h_kn⟩, ⟨_, h_w⟩⟩ := hown
    have e := e2e_cte_kernel hn hacc h_h h_kn h_w h_u h_s hsh hdh hch h_o hbase (x := x) (y := y) (dx := .reals x) (dy := .reals y) rfl rfl
      (z := z) (dz := .reals z) rfl
    simp only [kernelCTE, kernelCTELocal, i1, bind, Except.bind] at e
    exact e
  | metric =>
    obtain ⟨⟨_, h_k⟩, ⟨_, h_i⟩, ⟨_, h_v⟩, ⟨_, h_mp⟩⟩ := hown
    have e := e2e_cte_metric hn hacc h_k h_i h_v h_mp h_u h_s hsh hdh hch h_o hbase (x := x) (y := y) (dx := .reals x) (dy := .reals y) rfl rfl
      (z := z) (dz := .reals z) rfl
    simp only [ksgCTE, ksgCTELocal, i1, bind, Except.bind] at e
    exact e
  | renyi =>
    obtain ⟨⟨_, h_k⟩, ⟨_, h_q⟩, ⟨_, h_v⟩⟩ := hown
    have e := e2e_cte_renyi hn hacc h_k h_q h_v h_u h_s hsh hdh hch h_o hbase (x := x) (y := y) (dx := .reals x) (dy := .reals y) rfl rfl
      (z := z) (dz := .reals z) rfl
    simp only [expCTE, i1, bind, Except.bind] at e
    exact e
  | tsallis =>
    obtain ⟨⟨_, h_k⟩, ⟨_, h_q⟩, ⟨_, h_v⟩⟩ := hown
    have e := e2e_cte_tsallis hn hacc h_k h_q h_v h_u h_s hsh hdh hch h_o hbase (x := x) (y := y) (dx := .reals x) (dy := .reals y) rfl rfl
      (z := z) (dz := .reals z) rfl
    simp only [expCTE, i1, bind, Except.bind] at e
    exact e

end Verif
