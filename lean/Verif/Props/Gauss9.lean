import Verif.Props.Gauss7
import Verif.Props.KsgTE2

/-! # C71: transfer entropy with the Gaussian kernel -/

namespace Verif

open Matrix Spec

theorem columns_length (R c : Nat) (F : Nat → List ℝ) : ∀ j, (columns R c F j).length = R := by
  simp [columns]

theorem columns_atTime {R c : Nat} (F : Nat → List ℝ) {t : Nat} (ht : t < R) (j : Fin c) :
    atTime (columns R c F) t j = (F t).getD j 0 := by
  simp [atTime, columns, List.getD_eq_getElem?_getD, ht]

theorem ofFn_getD_self {c : Nat} {r : List ℝ} (hr : r.length = c) : List.ofFn (fun j : Fin c => r.getD j 0) = r := by
  subst hr
  refine List.ext_getElem (by simp) fun i h1 h2 => ?_
  simp [List.getD_eq_getElem?_getD]

theorem rowsArr_arrOf {R c : Nat} {F : Nat → List ℝ} (hF : ∀ i, (F i).length = c) : rowsArr R c F = arrOf R (columns R c F) := by
  unfold rowsArr arrOf
  congr 1
  refine List.map_congr_left fun t ht => ?_
  have ht' := List.mem_range.1 ht
  rw [← ofFn_getD_self (hF t)]
  congr 1
  funext j
  rw [columns_atTime F ht']

theorem kde_rows_gauss {R c : Nat} (hR : 2 ≤ R) (hc : 1 ≤ c) {F : Nat → List ℝ} (hF : ∀ i, (F i).length = c)
    (hs : Spread (columns R c F)) {eig : Eig} (he : EigOK eig) {h : ℝ} (hh : 0 < h) {w : Int} (hw : 1 ≤ w) :
    kdeDensity (Arr.ofRows ((List.range R).map F)) none (gaussCfg eig h w) = .ok ((List.range R).map (rowDensity R c F h)) := by
  rw [ofRows_range (by omega) hF, rowsArr_arrOf hF, kde_arrOf he (fit_spread hc hR (columns_length R c F) hs) hh hw]
  rfl

theorem rowDensity_pos {R c : Nat} (hR : 2 ≤ R) (hc : 1 ≤ c) {F : Nat → List ℝ} (hs : Spread (columns R c F)) {h : ℝ} (hh : 0 < h)
    (t : Nat) : 0 < rowDensity R c F h t :=
  gaussJoint_pos (fit_spread hc hR (columns_length R c F) hs) hh _

/-- the coordinates of part of the point are a subfamily -/
theorem columns_sub {R c c' : Nat} {F F' : Nat → List ℝ} (f : Fin c' → Fin c) (hf : ∀ i, ∀ j : Fin c', (F' i).getD j 0 = (F i).getD (f j) 0) :
    columns R c' F' = fun j => columns R c F (f j) := by
  funext j
  unfold columns
  exact List.map_congr_left fun i _ => hf i j

theorem spread_parts {R l k c : Nat} {f : Nat → ℝ} {g d z : Nat → List ℝ} (hg : ∀ i, (g i).length = l) (hd : ∀ i, (d i).length = k)
    (hs : Spread (columns R (l + k + 1 + c) (fun i => g i ++ d i ++ [f i] ++ z i))) :
    Spread (columns R (k + c) (fun i => d i ++ z i)) ∧ Spread (columns R (l + k + c) (fun i => g i ++ d i ++ z i)) ∧
    Spread (columns R (k + 1 + c) (fun i => d i ++ [f i] ++ z i)) := by
  refine ⟨?_, ?_, ?_⟩
  · rw [columns_sub (F := fun i => g i ++ d i ++ [f i] ++ z i) (c := l + k + 1 + c)
      (fun j : Fin (k + c) => if h : (j : Nat) < k then ⟨l + j, by omega⟩ else ⟨l + 1 + j, by omega⟩)]
    · refine spread_sub hs _ fun a b hab => ?_
      split_ifs at hab <;> simp only [Fin.mk.injEq] at hab <;> apply Fin.ext <;> omega
    · intro i j
      simp only [List.getD_eq_getElem?_getD]
      congr 1
      split_ifs with hj
      · rw [List.getElem?_append_left (by rw [hd]; exact hj), List.append_assoc (g i ++ d i), List.append_assoc (g i),
          List.getElem?_append_right (by rw [hg]; simp), List.getElem?_append_left (by rw [hg, hd]; simp only; omega)]
        simp [hg]
      · rw [List.getElem?_append_right (by rw [hd]; omega), List.getElem?_append_right (by simp [hg, hd]; omega)]
        congr 1
        simp [hg, hd]; omega
  · rw [columns_sub (F := fun i => g i ++ d i ++ [f i] ++ z i) (c := l + k + 1 + c)
      (fun j : Fin (l + k + c) => if h : (j : Nat) < l + k then ⟨j, by omega⟩ else ⟨1 + j, by omega⟩)]
    · refine spread_sub hs _ fun a b hab => ?_
      split_ifs at hab <;> simp only [Fin.mk.injEq] at hab <;> apply Fin.ext <;> omega
    · intro i j
      simp only [List.getD_eq_getElem?_getD]
      congr 1
      split_ifs with hj
      · rw [List.getElem?_append_left (l₁ := g i ++ d i) (by simp [hg, hd]; exact hj), List.append_assoc (g i ++ d i),
          List.getElem?_append_left (l₁ := g i ++ d i) (by simp [hg, hd]; exact hj)]
      · rw [List.getElem?_append_right (by simp [hg, hd]; omega), List.getElem?_append_right (by simp [hg, hd]; omega)]
        congr 1
        simp [hg, hd]; omega
  · rw [columns_sub (F := fun i => g i ++ d i ++ [f i] ++ z i) (c := l + k + 1 + c)
      (fun j : Fin (k + 1 + c) => ⟨l + j, by omega⟩)]
    · refine spread_sub hs _ fun a b hab => ?_
      simp only [Fin.mk.injEq] at hab
      apply Fin.ext; omega
    · intro i j
      simp only [List.getD_eq_getElem?_getD]
      congr 1
      rw [List.append_assoc (g i ++ d i), List.append_assoc (g i), List.append_assoc (d i), List.getElem?_append_right (l₁ := g i) (by rw [hg]; simp)]
      simp [hg]

/-- local log-ratio of the four densities -/
theorem kernelTECalc_gauss {eig : Eig} (he : EigOK eig) {R : Nat} (hR : 2 ≤ R) {l k c : Nat} (hk : 1 ≤ k) {f : Nat → ℝ}
    {g d z : Nat → List ℝ} (hg : ∀ i, (g i).length = l) (hd : ∀ i, (d i).length = k) (hz : ∀ i, (z i).length = c)
    (hs : Spread (columns R (l + k + 1 + c) (fun i => g i ++ d i ++ [f i] ++ z i)))
    {h : ℝ} (hh : 0 < h) {w : Int} (hw : 1 ≤ w) {b : Base} (hb : b.Valid) :
    kernelTECalc (gaussCfg eig h w) b
      { joint := (List.range R).map (fun i => g i ++ d i ++ [f i] ++ z i)
        destPast := (List.range R).map (fun i => d i ++ z i)
        marginal1 := (List.range R).map (fun i => g i ++ d i ++ z i)
        marginal2 := (List.range R).map (fun i => d i ++ [f i] ++ z i) } =
      .ok ((List.range R).map (fun t => Real.log (
        (rowDensity R (l + k + 1 + c) (fun i => g i ++ d i ++ [f i] ++ z i) h t * rowDensity R (k + c) (fun i => d i ++ z i) h t) /
        (rowDensity R (k + 1 + c) (fun i => d i ++ [f i] ++ z i) h t * rowDensity R (l + k + c) (fun i => g i ++ d i ++ z i) h t)) /
          b.ln)) := by
  obtain ⟨s1, s2, s3⟩ := spread_parts hg hd hs
  unfold kernelTECalc
  rw [kde_rows_gauss hR (by omega) (fun i => by simp [hg, hd, hz]; try omega) hs he hh hw,
    kde_rows_gauss hR (by omega) (fun i => by simp [hd, hz]; try omega) s1 he hh hw,
    kde_rows_gauss hR (by omega) (fun i => by simp [hg, hd, hz]; try omega) s2 he hh hw,
    kde_rows_gauss hR (by omega) (fun i => by simp [hd, hz]; try omega) s3 he hh hw]
  simp only [bind, Except.bind, List.length_map, List.length_range]
  rw [mapM_ok (g := fun t => Real.log (
        (rowDensity R (l + k + 1 + c) (fun i => g i ++ d i ++ [f i] ++ z i) h t * rowDensity R (k + c) (fun i => d i ++ z i) h t) /
        (rowDensity R (k + 1 + c) (fun i => d i ++ [f i] ++ z i) h t * rowDensity R (l + k + c) (fun i => g i ++ d i ++ z i) h t)) /
          b.ln)]
  · simp only [pure, Except.pure]
    rw [if_neg (by omega)]
  · intro t ht
    have ht' := List.mem_range.1 ht
    have g1 : ∀ F : Nat → ℝ, ((List.range R).map F).getD t 0 = F t := by
      intro F; simp [List.getD_eq_getElem?_getD, ht']
    rw [g1, g1, g1, g1, logBase_ok hb (div_pos (mul_pos (rowDensity_pos hR (by omega) hs hh t) (rowDensity_pos hR (by omega) s1 hh t))
      (mul_pos (rowDensity_pos hR (by omega) s3 hh t) (rowDensity_pos hR (by omega) s2 hh t)))]
    rfl

/-- Transfer entropy with the Gaussian kernel. -/
theorem C71_te_value (eig : Eig) (he : EigOK eig) (source dest : List ℝ) (l k s : Nat) (hs : 0 < s) (hl : 0 < l) (hk : 0 < k)
    (hm : max k l * s < source.length) (hlen : source.length = dest.length) (hR : 2 ≤ numRows dest.length (max k l) s)
    (h : ℝ) (hh : 0 < h) (w : Int) (hw : 1 ≤ w) (b : Base) (hb : b.Valid) (rnd : SrcRandom) (hr : rnd.Lawful) :
    let R := numRows dest.length (max k l) s
    let f := fun i => dest.getD ((max k l + i) * s) 0
    let g := fun i => histRow source (max k l) s l ((srcSel rnd R).getD i 0)
    let d := histRow dest (max k l) s k
    Spread (columns R (l + k + 1 + 0) (fun i => g i ++ d i ++ [f i] ++ [])) →
    kernelTE source dest (teParams l k s) (some (.int 0)) none (gaussCfg eig h w) b rnd =
      .ok (gaussTE R l k 0 f g d (fun _ => []) h / b.ln) := by
  intro R f g d hsp
  have ho := teObservations_ok source dest l k s hs hl hk hm hlen hr
  rw [srcRows_eq _ _ _ _ _ hr, histRows, futRows] at ho
  have key := kernelTECalc_gauss he hR (l := l) (k := k) (c := 0) hk (f := f) (g := g) (d := d) (z := fun _ => [])
    (by simp [g, histRow]) (by simp [d, histRow]) (by simp) hsp hh hw hb
  simp only [kernelTE, kernelTELocal, teInit_zero hlen, bind, Except.bind, teParams, ho, teSpaces_ok]
  simp only [List.append_nil] at key
  rw [show (default : ℝ) = 0 from rfl]
  rw [key]
  simp only
  rw [gMean hR]
  unfold gaussTE
  simp only [List.append_nil]
  rfl

/-- transfer entropy: the embedded observations of these series are the three uncorrelated series above -/
theorem gEx_te (x : ℝ) : Spread (columns (numRows 5 (max 1 1) 1) (1 + 1 + 1 + 0) (fun i =>
    histRow ([0, 1, 0, 1, x] : List ℝ) (max 1 1) 1 1 ((srcSel {} (numRows 5 (max 1 1) 1)).getD i 0) ++
      histRow ([0, 0, 1, 1, 0] : List ℝ) (max 1 1) 1 1 i ++ [([0, 0, 1, 1, 0] : List ℝ).getD ((max 1 1 + i) * 1) 0] ++ [])) := by
  have : columns (numRows 5 (max 1 1) 1) (1 + 1 + 1 + 0) (fun i =>
    histRow ([0, 1, 0, 1, x] : List ℝ) (max 1 1) 1 1 ((srcSel {} (numRows 5 (max 1 1) 1)).getD i 0) ++
      histRow ([0, 0, 1, 1, 0] : List ℝ) (max 1 1) 1 1 i ++ [([0, 0, 1, 1, 0] : List ℝ).getD ((max 1 1 + i) * 1) 0] ++ []) = gEx := by
    funext j
    fin_cases j <;> rfl
  rw [this]
  exact gEx_spread

example (eig : Eig) (he : EigOK eig) := C71_te_value eig he [0, 1, 0, 1, 7] [0, 0, 1, 1, 0] 1 1 1 one_pos one_pos one_pos (by norm_num) rfl
  (by simp [numRows]) 1 one_pos 1 le_rfl (.num 2) (by norm_num [Base.Valid]) {} lawful_none (gEx_te 7)

/-- Conditional transfer entropy with the Gaussian kernel. -/
theorem C71_cte_value (eig : Eig) (he : EigOK eig) (source dest cond : List ℝ) (l k c s : Nat) (hs : 0 < s) (hl : 0 < l) (hk : 0 < k)
    (hc : 0 < c) (hm : max (max k l) c * s < source.length) (hlen : source.length = dest.length) (hlen2 : cond.length = dest.length)
    (hR : 2 ≤ numRows dest.length (max (max k l) c) s) (h : ℝ) (hh : 0 < h) (w : Int) (hw : 1 ≤ w) (b : Base) (hb : b.Valid) :
    let M := max (max k l) c
    let R := numRows dest.length M s
    let f := fun i => dest.getD ((M + i) * s) 0
    let g := histRow source M s l
    let d := histRow dest M s k
    let z := histRow cond M s c
    Spread (columns R (l + k + 1 + c) (fun i => g i ++ d i ++ [f i] ++ z i)) →
    kernelCTE source dest (some cond) (teParams l k s) (.int c) (some (.int 0)) none (gaussCfg eig h w) b =
      .ok (gaussTE R l k c f g d z h / b.ln) := by
  intro M R f g d z hsp
  have ho := cteObservations_ok source dest cond l k c s hs hl hk hc hm hlen hlen2 lawful_none
  rw [srcSel_none, histRows, futRows, histRows] at ho
  have key := kernelTECalc_gauss he hR (l := l) (k := k) (c := c) hk (f := f) (g := g) (d := d) (z := z)
    (by simp [g, histRow]) (by simp [d, histRow]) (by simp [z, histRow]) hsp hh hw hb
  simp only [kernelCTE, kernelCTELocal, cteInit_zero hlen hlen2, bind, Except.bind, teParams, ho, cteSpaces_ok]
  rw [show (default : ℝ) = 0 from rfl]
  rw [key]
  simp only
  rw [gMean hR]
  rfl

/-- conditional transfer entropy: eight embedded observations with uncorrelated coordinates -/
example (eig : Eig) (he : EigOK eig) := C71_cte_value eig he [0, 1, 0, 1, 0, 1, 0, 1, 7] [0, 0, 1, 1, 0, 0, 1, 1, 0] [0, 0, 0, 0, 1, 1, 1, 1, 7]
  1 1 1 1 one_pos one_pos one_pos one_pos (by norm_num) rfl rfl (by simp [numRows]) 1 one_pos 1 le_rfl (.num 2) (by norm_num [Base.Valid])
  (by
    convert gFour_spread using 1
    funext j
    fin_cases j <;> rfl)

end Verif
