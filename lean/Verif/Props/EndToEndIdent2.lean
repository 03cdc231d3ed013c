import Verif.Lemmas.EndToEndIdent2
import Verif.Props.EndToEndIdent

/-!
# C91: (conditional) transfer entropy as a combination of the results of `im.entropy`

`lagCol dest n m s 0` is the column of future values, `histCols x n m s h` the `h` columns of the history of `x` (values `h`, …, 1
steps before the future value), where `n` is the length of the series, `s` the step and `m` the longest history.

Concrete calls that meet the hypotheses are in `Props/EndToEndIdentEx.lean`.
-/

namespace Verif

open Spec

variable {W : World} {a aT : PyName} {kw kwT : Kw} {b : Base} {cond : CondKw PyData} {l k s c : Nat}

theorem idn_te_value {δ : Type} [DecidableEq δ] {R : Nat} {F : List Int} {G D f g : List (List Int)} {d : List δ}
    (T : TeSame R F G D f g d) (m : Method) (x : ℝ) :
    (m.value (f.zip d) + m.value (g.zip d) - m.value (f.zip (g.zip d)) - m.value d) / x =
      m.value (jointCodes R (F :: D)) / x + m.value (jointCodes R (G ++ D)) / x - m.value (jointCodes R (F :: (G ++ D))) / x -
        m.value (jointCodes R D) / x := by
  rw [value_congr T.fd, value_congr T.gd, value_congr T.fgd, value_congr T.d, sub_div, sub_div, add_div]

theorem idn_te_cmi {δ : Type} [DecidableEq δ] {R : Nat} {F : List Int} {G D f g : List (List Int)} {d : List δ}
    (T : TeSame R F G D f g d) (hf : f.length = R) (hg : g.length = R) (hd : d.length = R) (x : ℝ) :
    Spec.cmi f g d / x =
      entropy (jointCodes R (F :: D)) / x + entropy (jointCodes R (G ++ D)) / x - entropy (jointCodes R (F :: (G ++ D))) / x -
        entropy (jointCodes R D) / x := by
  rw [idn_entropy_congr T.fd, idn_entropy_congr T.gd, idn_entropy_congr T.fgd, idn_entropy_congr T.d,
    cmi_eq_entropies f g d (hf.trans hg.symm) (hg.trans hd.symm)]
  ring

theorem idn_te_mm {δ : Type} [DecidableEq δ] {R : Nat} {F : List Int} {G D f g : List (List Int)} {d : List δ}
    (T : TeSame R F G D f g d) (x : ℝ) :
    (millerMadow (f.zip d) + millerMadow (g.zip d) - millerMadow (f.zip (g.zip d)) - millerMadow d) / x =
      millerMadow (jointCodes R (F :: D)) / x + millerMadow (jointCodes R (G ++ D)) / x - millerMadow (jointCodes R (F :: (G ++ D))) / x -
        millerMadow (jointCodes R D) / x := by
  rw [idn_mm_congr T.fd, idn_mm_congr T.gd, idn_mm_congr T.fgd, idn_mm_congr T.d, sub_div, sub_div, add_div]

/-- repetition in the joint sample gives repetition in the parts -/
theorem idn_te_repeats {δ : Type} [DecidableEq δ] {f g : List (List Int)} {d : List δ} {R : Nat} (hf : f.length = R) (hg : g.length = R)
    (hd : d.length = R) (h : ¬ (f.zip (g.zip d)).Nodup) : ¬ (f.zip d).Nodup ∧ ¬ (g.zip d).Nodup ∧ ¬ d.Nodup := by
  have e1 : f.zip d = (f.zip (g.zip d)).map (fun w => (w.1, w.2.2)) := by
    refine List.ext_getElem (by simp [hf, hg, hd]) fun i _ _ => by simp
  have e2 : g.zip d = (f.zip (g.zip d)).map (fun w => w.2) := by
    refine List.ext_getElem (by simp [hf, hg, hd]) fun i _ _ => by simp
  have e3 : d = (f.zip (g.zip d)).map (fun w => w.2.2) := by
    refine List.ext_getElem (by simp [hf, hg, hd]) fun i _ _ => by simp
  refine ⟨fun hn => h ?_, fun hn => h ?_, fun hn => h ?_⟩
  · rw [e1] at hn; exact List.Nodup.of_map _ hn
  · rw [e2] at hn; exact List.Nodup.of_map _ hn
  · rw [e3] at hn; exact List.Nodup.of_map _ hn

/-! ## Transfer entropy -/

/-- **C91** Transfer entropy of the plug-in estimator from the results of `im.entropy` on the embedded columns. -/
theorem C91_te (hH : Call W .h .discrete a kw b) (hT : Call W .te .discrete aT kwT b) (hb : b.Std) (hcd : cond.isVal = false) (hh : History kwT l k s) (hs : 0 < s) (hl : 0 < l) (hk : 0 < k)
    (source dest : List Int) (hm : max k l * s < source.length) (hlen : source.length = dest.length) (hov : dest.length < 2 ^ 32) :
    ∃ v, imTE W [.ints source, .ints dest] aT cond kwT = .ok v ∧
      TeCombination W a kw (lagCol dest dest.length (max k l) s 0) (histCols source dest.length (max k l) s l)
        (histCols dest dest.length (max k l) s k) v := by
  have T := teSame_te source dest l k s dest.length hk
  refine ⟨_, C82_te hT hb.valid hcd hh hs hl hk source dest hm hlen hov, pubH_te (pubH_simple .discrete (by simp [simpleFams]) hH hb) T (idn_rows_pos hs (hlen ▸ hm))
    trivial trivial trivial trivial (idn_te_cmi T (by simp [futRows]) (by simp [histRows]) (by simp [histRows]) _)⟩

/-- **C91** the same for Miller–Madow. -/
theorem C91_te_miller_madow (hH : Call W .h .millerMadow a kw b) (hT : Call W .te .millerMadow aT kwT b) (hb : b.Std) (hcd : cond.isVal = false) (hh : History kwT l k s) (hs : 0 < s) (hl : 0 < l) (hk : 0 < k)
    (source dest : List Int) (hm : max k l * s < source.length) (hlen : source.length = dest.length) (hov : dest.length < 2 ^ 32) :
    ∃ v, imTE W [.ints source, .ints dest] aT cond kwT = .ok v ∧
      TeCombination W a kw (lagCol dest dest.length (max k l) s 0) (histCols source dest.length (max k l) s l)
        (histCols dest dest.length (max k l) s k) v := by
  have T := teSame_te source dest l k s dest.length hk
  exact ⟨_, C82_te_miller_madow hT hb.valid hcd hh hs hl hk source dest hm hlen hov, pubH_te (pubH_simple .millerMadow (by simp [simpleFams]) hH hb) T (idn_rows_pos hs (hlen ▸ hm))
    trivial trivial trivial trivial (idn_te_mm T _)⟩

/-- **C91** the same for the bias-corrected estimators without parameters, shrinkage excepted. -/
theorem C91_te_bias {f : Fam} {m : Method} (hf : FamMethod f m) (hsh : f ≠ .shrink) (hH : Call W .h f a kw b) (hT : Call W .te f aT kwT b)
    (hb : b.Std) (hcd : cond.isVal = false) (hh : History kwT l k s) (hs : 0 < s) (hl : 0 < l) (hk : 0 < k) (source dest : List Int) (hm : max k l * s < source.length) (hlen : source.length = dest.length) :
    ∃ v, imTE W [.ints source, .ints dest] aT cond kwT = .ok v ∧
      TeCombination W a kw (lagCol dest dest.length (max k l) s 0) (histCols source dest.length (max k l) s l)
        (histCols dest dest.length (max k l) s k) v := by
  have T := teSame_te source dest l k s dest.length hk
  obtain ⟨h1, hv⟩ := idn_fam_value hf hsh
  refine ⟨_, C82_te_bias hf hT hb.valid hcd hh hs hl hk source dest hm hlen, pubH_te (pubH_simple f h1 hH hb) T (idn_rows_pos hs (hlen ▸ hm))
    trivial trivial trivial trivial ?_⟩
  simp only [hv]
  exact idn_te_value T m _

/-- **C91** the same for the Bayesian estimator. -/
theorem C91_te_bayes (al : AlphaArg) (K : Option Nat) {m : Method}
    (hme : (BiasClass.bayes al (K.map (fun k : Nat => PyArg.int (k : Int)))).Means m)
    (hH : Call W .h .bayes a kw b) (hT : Call W .te .bayes aT kwT b) (hb : b.Valid)
    (h1 : (kw "alpha").bind PyVal.toAlpha = some al) (h1' : (kwT "alpha").bind PyVal.toAlpha = some al)
    (h3 : kwOr kw "K" .none = idnK K) (h3' : kwOr kwT "K" .none = idnK K) (hcd : cond.isVal = false) (hh : History kwT l k s) (hs : 0 < s) (hl : 0 < l) (hk : 0 < k) (source dest : List Int)
    (hm : max k l * s < source.length) (hlen : source.length = dest.length) :
    ∃ v, imTE W [.ints source, .ints dest] aT cond kwT = .ok v ∧
      TeCombination W a kw (lagCol dest dest.length (max k l) s 0) (histCols source dest.length (max k l) s l)
        (histCols dest dest.length (max k l) s k) v := by
  have T := teSame_te source dest l k s dest.length hk
  exact ⟨_, C82_te_bayes al _ hme hT hb h1' (by rw [h3']; cases K <;> rfl) hcd hh hs hl hk source dest hm hlen,
    pubH_te (pubH_bayes al K hme hH hb h1 h3) T (idn_rows_pos hs (hlen ▸ hm)) trivial trivial trivial trivial (idn_te_value T m _)⟩

/-- **C91** ANSB: either the identity holds, or neither the joint entropy nor the transfer entropy is finite. -/
theorem C91_te_ansb (hH : Call W .h .ansb a kw b) (hT : Call W .te .ansb aT kwT b) (hb : b.Valid) (u : ℝ) (hu : 0 ≤ u)
    (h1 : (kwOr kwT "undersampled" (.num (1 / 10))).toNum = some u) (hK : kwOr kw "K" .none = .none) (hcd : cond.isVal = false) (hh : History kwT l k s) (hs : 0 < s) (hl : 0 < l) (hk : 0 < k) (source dest : List Int)
    (hm : max k l * s < source.length) (hlen : source.length = dest.length) :
    (∃ v, imTE W [.ints source, .ints dest] aT cond kwT = .ok v ∧
      TeCombination W a kw (lagCol dest dest.length (max k l) s 0) (histCols source dest.length (max k l) s l)
        (histCols dest dest.length (max k l) s k) v) ∨
    (imEntropy W [.intTup (lagCol dest dest.length (max k l) s 0 :: (histCols source dest.length (max k l) s l ++ (histCols dest dest.length (max k l) s k)))] a .absent kw = .error .nonFinite ∧
      imTE W [.ints source, .ints dest] aT cond kwT = .error .nonFinite) := by
  have T := teSame_te source dest l k s dest.length hk
  have hR := idn_rows_pos hs (hlen ▸ hm)
  have P := pubH_ansb hH hb hK
  obtain ⟨e1, e2⟩ := C82_te_ansb hT hb u hu h1 hcd hh hs hl hk source dest hm hlen
  by_cases h : (List.zip (futRows dest dest.length (max k l) s) (List.zip (histRows source dest.length (max k l) s l)
      (histRows dest dest.length (max k l) s k))).Nodup
  · refine .inr ⟨?_, e2 h⟩
    rw [P.tup _ _ hR (by simp) (by
      intro x hx
      rcases List.mem_cons.1 hx with rfl | hx
      · exact T.lF
      · exact (List.mem_append.1 hx).elim (T.lG x) (T.lD x))]
    exact (P.seq _ (jointCodes_ne hR _)).2 (fun h' => (defined_congr T.fgd .ansb).1 h' h)
  · obtain ⟨r1, r2, r3⟩ := idn_te_repeats (R := numRows dest.length (max k l) s) (by simp [futRows]) (by simp [histRows]) (by simp [histRows]) h
    exact .inl ⟨_, e1 h, pubH_te P T hR ((defined_congr T.fd .ansb).2 r1) ((defined_congr T.gd .ansb).2 r2)
      ((defined_congr T.fgd .ansb).2 h) ((defined_congr T.d .ansb).2 r3) (idn_te_value T .ansb _)⟩

/-- **C91** NSB: either the identity holds, or the transfer entropy and one of the entropies are not finite. -/
theorem C91_te_nsb (hH : Call W .h .nsb a kw b) (hT : Call W .te .nsb aT kwT b) (hb : b.Valid) (K : Option Nat)
    (hK : kwOr kw "K" .none = idnK K) (hK' : kwOr kwT "K" .none = idnK K) (hK0 : ∀ k, K = some k → 0 < k) (hcd : cond.isVal = false) (hh : History kwT l k s) (hs : 0 < s) (hl : 0 < l) (hk : 0 < k) (source dest : List Int)
    (hm : max k l * s < source.length) (hlen : source.length = dest.length) :
    (∃ v, imTE W [.ints source, .ints dest] aT cond kwT = .ok v ∧
      TeCombination W a kw (lagCol dest dest.length (max k l) s 0) (histCols source dest.length (max k l) s l)
        (histCols dest dest.length (max k l) s k) v) ∨
    ((∃ cols ∈ [lagCol dest dest.length (max k l) s 0 :: (histCols dest dest.length (max k l) s k), histCols source dest.length (max k l) s l ++ (histCols dest dest.length (max k l) s k),
        lagCol dest dest.length (max k l) s 0 :: (histCols source dest.length (max k l) s l ++ (histCols dest dest.length (max k l) s k)), (histCols dest dest.length (max k l) s k)],
        imEntropy W [.intTup cols] a .absent kw = .error .nonFinite) ∧
      imTE W [.ints source, .ints dest] aT cond kwT = .error .nonFinite) := by
  have T := teSame_te source dest l k s dest.length hk
  have hR := idn_rows_pos hs (hlen ▸ hm)
  have P := pubH_nsb hH hb K hK hK0
  obtain ⟨e1, e2⟩ := C82_te_nsb hT hb K hK' hK0 hcd hh hs hl hk source dest hm hlen
  have lGD : ∀ x ∈ histCols source dest.length (max k l) s l ++ histCols dest dest.length (max k l) s k, x.length = numRows dest.length (max k l) s := fun x hx => (List.mem_append.1 hx).elim (T.lG x) (T.lD x)
  have lc : ∀ {A : List (List Int)}, (∀ c ∈ A, c.length = numRows dest.length (max k l) s) → ∀ c ∈ lagCol dest dest.length (max k l) s 0 :: A, c.length = numRows dest.length (max k l) s := by
    intro A hA c hc
    rcases List.mem_cons.1 hc with rfl | h
    · exact T.lF
    · exact hA c h
  by_cases d1 : Nsb.Defined ((futRows dest dest.length (max k l) s).zip (histRows dest dest.length (max k l) s k)) K
  swap
  · refine .inr ⟨⟨_, List.mem_cons_self .., ?_⟩, e2 (fun h => d1 h.1)⟩
    rw [P.tup _ _ hR (by simp) (lc T.lD)]
    exact (P.seq _ (jointCodes_ne hR _)).2 (fun h' => d1 ((nsb_defined_congr T.fd K).1 h'))
  by_cases d2 : Nsb.Defined ((histRows source dest.length (max k l) s l).zip (histRows dest dest.length (max k l) s k)) K
  swap
  · refine .inr ⟨⟨_, List.mem_cons_of_mem _ (List.mem_cons_self ..), ?_⟩, e2 (fun h => d2 h.2.1)⟩
    rw [P.tup _ _ hR (by simp [T.ne]) lGD]
    exact (P.seq _ (jointCodes_ne hR _)).2 (fun h' => d2 ((nsb_defined_congr T.gd K).1 h'))
  by_cases d3 : Nsb.Defined ((futRows dest dest.length (max k l) s).zip ((histRows source dest.length (max k l) s l).zip (histRows dest dest.length (max k l) s k))) K
  swap
  · refine .inr ⟨⟨_, List.mem_cons_of_mem _ (List.mem_cons_of_mem _ (List.mem_cons_self ..)), ?_⟩, e2 (fun h => d3 h.2.2.1)⟩
    rw [P.tup _ _ hR (by simp) (lc lGD)]
    exact (P.seq _ (jointCodes_ne hR _)).2 (fun h' => d3 ((nsb_defined_congr T.fgd K).1 h'))
  by_cases d4 : Nsb.Defined (histRows dest dest.length (max k l) s k) K
  swap
  · refine .inr ⟨⟨_, List.mem_cons_of_mem _ (List.mem_cons_of_mem _ (List.mem_cons_of_mem _ (List.mem_cons_self ..))), ?_⟩,
      e2 (fun h => d4 h.2.2.2)⟩
    rw [P.tup _ _ hR T.ne T.lD]
    exact (P.seq _ (jointCodes_ne hR _)).2 (fun h' => d4 ((nsb_defined_congr T.d K).1 h'))
  refine .inl ⟨_, e1 ⟨d1, d2, d3, d4⟩, pubH_te P T hR ((nsb_defined_congr T.fd K).2 d1) ((nsb_defined_congr T.gd K).2 d2)
    ((nsb_defined_congr T.fgd K).2 d3) ((nsb_defined_congr T.d K).2 d4) ?_⟩
  have hne : ∀ cols, jointCodes (numRows dest.length (max k l) s) cols ≠ [] := jointCodes_ne hR
  rw [nsb_value_congr T.fd (hne _) hK0, nsb_value_congr T.gd (hne _) hK0, nsb_value_congr T.fgd (hne _) hK0,
    nsb_value_congr T.d (hne _) hK0, sub_div, sub_div, add_div]

/-! ## Conditional transfer entropy -/

/-- **C91** Conditional transfer entropy of the plug-in estimator from the results of `im.entropy` on the embedded columns. -/
theorem C91_cte (hH : Call W .h .discrete a kw b) (hT : Call W .cte .discrete aT kwT b) (hb : b.Std) (hh : History kwT l k s) (hcd : kwOr kwT "cond_hist_len" (.int 1) = .int c) (hs : 0 < s) (hl : 0 < l) (hk : 0 < k) (hc : 0 < c)
    (source dest z : List Int) (hm : max (max k l) c * s < source.length) (hlen : source.length = dest.length) (hlen2 : z.length = dest.length) (hov : dest.length < 2 ^ 32) :
    ∃ v, CteIs W (.ints source) (.ints dest) aT (.ints z) kwT (.ok v) ∧
      TeCombination W a kw (lagCol dest dest.length (max (max k l) c) s 0) (histCols source dest.length (max (max k l) c) s l)
        (histCols dest dest.length (max (max k l) c) s k ++ histCols z dest.length (max (max k l) c) s c) v := by
  have T := teSame_cte source dest z l k c s dest.length hk
  refine ⟨_, C82_cte hT hb hh hcd hs hl hk hc source dest z hm hlen hlen2 hov, pubH_te (pubH_simple .discrete (by simp [simpleFams]) hH hb) T (idn_rows_pos hs (hlen ▸ hm))
    trivial trivial trivial trivial (idn_te_cmi T (by simp [futRows]) (by simp [histRows]) (by simp [histRows]) _)⟩

/-- **C91** the same for Miller–Madow. -/
theorem C91_cte_miller_madow (hH : Call W .h .millerMadow a kw b) (hT : Call W .cte .millerMadow aT kwT b) (hb : b.Std) (hh : History kwT l k s) (hcd : kwOr kwT "cond_hist_len" (.int 1) = .int c) (hs : 0 < s) (hl : 0 < l) (hk : 0 < k) (hc : 0 < c)
    (source dest z : List Int) (hm : max (max k l) c * s < source.length) (hlen : source.length = dest.length) (hlen2 : z.length = dest.length) (hov : dest.length < 2 ^ 32) :
    ∃ v, CteIs W (.ints source) (.ints dest) aT (.ints z) kwT (.ok v) ∧
      TeCombination W a kw (lagCol dest dest.length (max (max k l) c) s 0) (histCols source dest.length (max (max k l) c) s l)
        (histCols dest dest.length (max (max k l) c) s k ++ histCols z dest.length (max (max k l) c) s c) v := by
  have T := teSame_cte source dest z l k c s dest.length hk
  exact ⟨_, C82_cte_miller_madow hT hb.valid hh hcd hs hl hk hc source dest z hm hlen hlen2 hov, pubH_te (pubH_simple .millerMadow (by simp [simpleFams]) hH hb) T (idn_rows_pos hs (hlen ▸ hm))
    trivial trivial trivial trivial (idn_te_mm T _)⟩

/-- **C91** the same for the bias-corrected estimators without parameters, shrinkage excepted. -/
theorem C91_cte_bias {f : Fam} {m : Method} (hf : FamMethod f m) (hsh : f ≠ .shrink) (hH : Call W .h f a kw b) (hT : Call W .cte f aT kwT b)
    (hb : b.Std) (hh : History kwT l k s) (hcd : kwOr kwT "cond_hist_len" (.int 1) = .int c) (hs : 0 < s) (hl : 0 < l) (hk : 0 < k) (hc : 0 < c) (source dest z : List Int) (hm : max (max k l) c * s < source.length) (hlen : source.length = dest.length) (hlen2 : z.length = dest.length) :
    ∃ v, CteIs W (.ints source) (.ints dest) aT (.ints z) kwT (.ok v) ∧
      TeCombination W a kw (lagCol dest dest.length (max (max k l) c) s 0) (histCols source dest.length (max (max k l) c) s l)
        (histCols dest dest.length (max (max k l) c) s k ++ histCols z dest.length (max (max k l) c) s c) v := by
  have T := teSame_cte source dest z l k c s dest.length hk
  obtain ⟨h1, hv⟩ := idn_fam_value hf hsh
  refine ⟨_, C82_cte_bias hf hT hb.valid hh hcd hs hl hk hc source dest z hm hlen hlen2, pubH_te (pubH_simple f h1 hH hb) T (idn_rows_pos hs (hlen ▸ hm))
    trivial trivial trivial trivial ?_⟩
  simp only [hv]
  exact idn_te_value T m _

/-- **C91** the same for the Bayesian estimator. -/
theorem C91_cte_bayes (al : AlphaArg) (K : Option Nat) {m : Method}
    (hme : (BiasClass.bayes al (K.map (fun k : Nat => PyArg.int (k : Int)))).Means m)
    (hH : Call W .h .bayes a kw b) (hT : Call W .cte .bayes aT kwT b) (hb : b.Valid)
    (h1 : (kw "alpha").bind PyVal.toAlpha = some al) (h1' : (kwT "alpha").bind PyVal.toAlpha = some al)
    (h3 : kwOr kw "K" .none = idnK K) (h3' : kwOr kwT "K" .none = idnK K) (hh : History kwT l k s) (hcd : kwOr kwT "cond_hist_len" (.int 1) = .int c) (hs : 0 < s) (hl : 0 < l) (hk : 0 < k) (hc : 0 < c) (source dest z : List Int)
    (hm : max (max k l) c * s < source.length) (hlen : source.length = dest.length) (hlen2 : z.length = dest.length) :
    ∃ v, CteIs W (.ints source) (.ints dest) aT (.ints z) kwT (.ok v) ∧
      TeCombination W a kw (lagCol dest dest.length (max (max k l) c) s 0) (histCols source dest.length (max (max k l) c) s l)
        (histCols dest dest.length (max (max k l) c) s k ++ histCols z dest.length (max (max k l) c) s c) v := by
  have T := teSame_cte source dest z l k c s dest.length hk
  exact ⟨_, C82_cte_bayes al _ hme hT hb h1' (by rw [h3']; cases K <;> rfl) hh hcd hs hl hk hc source dest z hm hlen hlen2,
    pubH_te (pubH_bayes al K hme hH hb h1 h3) T (idn_rows_pos hs (hlen ▸ hm)) trivial trivial trivial trivial (idn_te_value T m _)⟩

/-- **C91** ANSB: either the identity holds, or neither the joint entropy nor the conditional transfer entropy is finite. -/
theorem C91_cte_ansb (hH : Call W .h .ansb a kw b) (hT : Call W .cte .ansb aT kwT b) (hb : b.Valid) (u : ℝ) (hu : 0 ≤ u)
    (h1 : (kwOr kwT "undersampled" (.num (1 / 10))).toNum = some u) (hK : kwOr kw "K" .none = .none) (hh : History kwT l k s) (hcd : kwOr kwT "cond_hist_len" (.int 1) = .int c) (hs : 0 < s) (hl : 0 < l) (hk : 0 < k) (hc : 0 < c) (source dest z : List Int)
    (hm : max (max k l) c * s < source.length) (hlen : source.length = dest.length) (hlen2 : z.length = dest.length) :
    (∃ v, CteIs W (.ints source) (.ints dest) aT (.ints z) kwT (.ok v) ∧
      TeCombination W a kw (lagCol dest dest.length (max (max k l) c) s 0) (histCols source dest.length (max (max k l) c) s l)
        (histCols dest dest.length (max (max k l) c) s k ++ histCols z dest.length (max (max k l) c) s c) v) ∨
    (imEntropy W [.intTup (lagCol dest dest.length (max (max k l) c) s 0 :: (histCols source dest.length (max (max k l) c) s l ++ (histCols dest dest.length (max (max k l) c) s k ++ histCols z dest.length (max (max k l) c) s c)))] a .absent kw = .error .nonFinite ∧
      CteIs W (.ints source) (.ints dest) aT (.ints z) kwT (.error .nonFinite)) := by
  have T := teSame_cte source dest z l k c s dest.length hk
  have hR := idn_rows_pos hs (hlen ▸ hm)
  have P := pubH_ansb hH hb hK
  obtain ⟨e1, e2⟩ := C82_cte_ansb hT hb u hu h1 hh hcd hs hl hk hc source dest z hm hlen hlen2
  by_cases h : (List.zip (futRows dest dest.length (max (max k l) c) s) (List.zip (histRows source dest.length (max (max k l) c) s l)
      ((histRows dest dest.length (max (max k l) c) s k).zip (histRows z dest.length (max (max k l) c) s c)))).Nodup
  · refine .inr ⟨?_, e2 h⟩
    rw [P.tup _ _ hR (by simp) (by
      intro x hx
      rcases List.mem_cons.1 hx with rfl | hx
      · exact T.lF
      · exact (List.mem_append.1 hx).elim (T.lG x) (T.lD x))]
    exact (P.seq _ (jointCodes_ne hR _)).2 (fun h' => (defined_congr T.fgd .ansb).1 h' h)
  · obtain ⟨r1, r2, r3⟩ := idn_te_repeats (R := numRows dest.length (max (max k l) c) s) (by simp [futRows]) (by simp [histRows]) (by simp [histRows]) h
    exact .inl ⟨_, e1 h, pubH_te P T hR ((defined_congr T.fd .ansb).2 r1) ((defined_congr T.gd .ansb).2 r2)
      ((defined_congr T.fgd .ansb).2 h) ((defined_congr T.d .ansb).2 r3) (idn_te_value T .ansb _)⟩

/-- **C91** NSB: either the identity holds, or the conditional transfer entropy and one of the entropies are not finite. -/
theorem C91_cte_nsb (hH : Call W .h .nsb a kw b) (hT : Call W .cte .nsb aT kwT b) (hb : b.Valid) (K : Option Nat)
    (hK : kwOr kw "K" .none = idnK K) (hK' : kwOr kwT "K" .none = idnK K) (hK0 : ∀ k, K = some k → 0 < k) (hh : History kwT l k s) (hcd : kwOr kwT "cond_hist_len" (.int 1) = .int c) (hs : 0 < s) (hl : 0 < l) (hk : 0 < k) (hc : 0 < c) (source dest z : List Int)
    (hm : max (max k l) c * s < source.length) (hlen : source.length = dest.length) (hlen2 : z.length = dest.length) :
    (∃ v, CteIs W (.ints source) (.ints dest) aT (.ints z) kwT (.ok v) ∧
      TeCombination W a kw (lagCol dest dest.length (max (max k l) c) s 0) (histCols source dest.length (max (max k l) c) s l)
        (histCols dest dest.length (max (max k l) c) s k ++ histCols z dest.length (max (max k l) c) s c) v) ∨
    ((∃ cols ∈ [lagCol dest dest.length (max (max k l) c) s 0 :: (histCols dest dest.length (max (max k l) c) s k ++ histCols z dest.length (max (max k l) c) s c), histCols source dest.length (max (max k l) c) s l ++ (histCols dest dest.length (max (max k l) c) s k ++ histCols z dest.length (max (max k l) c) s c),
        lagCol dest dest.length (max (max k l) c) s 0 :: (histCols source dest.length (max (max k l) c) s l ++ (histCols dest dest.length (max (max k l) c) s k ++ histCols z dest.length (max (max k l) c) s c)), (histCols dest dest.length (max (max k l) c) s k ++ histCols z dest.length (max (max k l) c) s c)],
        imEntropy W [.intTup cols] a .absent kw = .error .nonFinite) ∧
      CteIs W (.ints source) (.ints dest) aT (.ints z) kwT (.error .nonFinite)) := by
  have T := teSame_cte source dest z l k c s dest.length hk
  have hR := idn_rows_pos hs (hlen ▸ hm)
  have P := pubH_nsb hH hb K hK hK0
  obtain ⟨e1, e2⟩ := C82_cte_nsb hT hb K hK' hK0 hh hcd hs hl hk hc source dest z hm hlen hlen2
  have lGD : ∀ x ∈ histCols source dest.length (max (max k l) c) s l ++ (histCols dest dest.length (max (max k l) c) s k ++ histCols z dest.length (max (max k l) c) s c), x.length = numRows dest.length (max (max k l) c) s := fun x hx => (List.mem_append.1 hx).elim (T.lG x) (T.lD x)
  have lc : ∀ {A : List (List Int)}, (∀ x ∈ A, x.length = numRows dest.length (max (max k l) c) s) → ∀ x ∈ lagCol dest dest.length (max (max k l) c) s 0 :: A, x.length = numRows dest.length (max (max k l) c) s := by
    intro A hA x hx
    rcases List.mem_cons.1 hx with rfl | h
    · exact T.lF
    · exact hA x h
  by_cases d1 : Nsb.Defined ((futRows dest dest.length (max (max k l) c) s).zip ((histRows dest dest.length (max (max k l) c) s k).zip (histRows z dest.length (max (max k l) c) s c))) K
  swap
  · refine .inr ⟨⟨_, List.mem_cons_self .., ?_⟩, e2 (fun h => d1 h.1)⟩
    rw [P.tup _ _ hR (by simp) (lc T.lD)]
    exact (P.seq _ (jointCodes_ne hR _)).2 (fun h' => d1 ((nsb_defined_congr T.fd K).1 h'))
  by_cases d2 : Nsb.Defined ((histRows source dest.length (max (max k l) c) s l).zip ((histRows dest dest.length (max (max k l) c) s k).zip (histRows z dest.length (max (max k l) c) s c))) K
  swap
  · refine .inr ⟨⟨_, List.mem_cons_of_mem _ (List.mem_cons_self ..), ?_⟩, e2 (fun h => d2 h.2.1)⟩
    rw [P.tup _ _ hR (fun h => T.ne (List.append_eq_nil_iff.1 h).2) lGD]
    exact (P.seq _ (jointCodes_ne hR _)).2 (fun h' => d2 ((nsb_defined_congr T.gd K).1 h'))
  by_cases d3 : Nsb.Defined ((futRows dest dest.length (max (max k l) c) s).zip ((histRows source dest.length (max (max k l) c) s l).zip ((histRows dest dest.length (max (max k l) c) s k).zip (histRows z dest.length (max (max k l) c) s c)))) K
  swap
  · refine .inr ⟨⟨_, List.mem_cons_of_mem _ (List.mem_cons_of_mem _ (List.mem_cons_self ..)), ?_⟩, e2 (fun h => d3 h.2.2.1)⟩
    rw [P.tup _ _ hR (by simp) (lc lGD)]
    exact (P.seq _ (jointCodes_ne hR _)).2 (fun h' => d3 ((nsb_defined_congr T.fgd K).1 h'))
  by_cases d4 : Nsb.Defined ((histRows dest dest.length (max (max k l) c) s k).zip (histRows z dest.length (max (max k l) c) s c)) K
  swap
  · refine .inr ⟨⟨_, List.mem_cons_of_mem _ (List.mem_cons_of_mem _ (List.mem_cons_of_mem _ (List.mem_cons_self ..))), ?_⟩,
      e2 (fun h => d4 h.2.2.2)⟩
    rw [P.tup _ _ hR T.ne T.lD]
    exact (P.seq _ (jointCodes_ne hR _)).2 (fun h' => d4 ((nsb_defined_congr T.d K).1 h'))
  refine .inl ⟨_, e1 ⟨d1, d2, d3, d4⟩, pubH_te P T hR ((nsb_defined_congr T.fd K).2 d1) ((nsb_defined_congr T.gd K).2 d2)
    ((nsb_defined_congr T.fgd K).2 d3) ((nsb_defined_congr T.d K).2 d4) ?_⟩
  have hne : ∀ cols, jointCodes (numRows dest.length (max (max k l) c) s) cols ≠ [] := jointCodes_ne hR
  rw [nsb_value_congr T.fd (hne _) hK0, nsb_value_congr T.gd (hne _) hK0, nsb_value_congr T.fgd (hne _) hK0,
    nsb_value_congr T.d (hne _) hK0, sub_div, sub_div, add_div]

end Verif
