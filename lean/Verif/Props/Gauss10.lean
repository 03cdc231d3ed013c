import Verif.Props.Gauss9

/-! # C71: units do not matter for transfer entropy with the Gaussian kernel -/

namespace Verif

open Matrix Spec

/-- coordinatewise affine map of a point -/
def affRow (A : List (ℝ × ℝ)) (r : List ℝ) : List ℝ := List.zipWith (fun p x => p.1 * x + p.2) A r

theorem affRow_append {A B : List (ℝ × ℝ)} {r s : List ℝ} (h : A.length = r.length) :
    affRow (A ++ B) (r ++ s) = affRow A r ++ affRow B s := List.zipWith_append h

theorem affRow_replicate {n : Nat} {a c : ℝ} {r : List ℝ} (h : r.length = n) :
    affRow (List.replicate n (a, c)) r = r.map (fun x => a * x + c) := by
  subst h
  refine List.ext_getElem (by simp [affRow]) fun i h1 h2 => by simp [affRow]

theorem rowDensity_affine {R c : Nat} (hR : 2 ≤ R) {F F' : Nat → List ℝ} (hF : ∀ i, (F i).length = c) {A : List (ℝ × ℝ)}
    (hA : A.length = c) (h0 : ∀ p ∈ A, p.1 ≠ 0) (hF' : ∀ i < R, F' i = affRow A (F i)) (h : ℝ) {t : Nat} (ht : t < R) :
    rowDensity R c F' h t = rowDensity R c F h t / (A.map (fun p : ℝ × ℝ => |p.1|)).prod := by
  subst hA
  have e : columns R A.length F' = fun j => scaleSeries (A[j].1) (A[j].2) (columns R A.length F j) := by
    funext j
    unfold columns scaleSeries
    rw [List.map_map]
    refine List.map_congr_left fun i hi => ?_
    have h2 : (j : Nat) < (F i).length := by rw [hF]; exact j.2
    rw [hF' i (List.mem_range.1 hi)]
    simp [affRow, List.getD_eq_getElem?_getD, List.getElem?_zipWith, h2]
  unfold rowDensity
  have hd : (Matrix.diagonal (fun j : Fin A.length => A[j].1)).det ≠ 0 := by
    rw [Matrix.det_diagonal]
    exact Finset.prod_ne_zero_iff.2 fun j _ => h0 _ (List.getElem_mem _)
  have e1 := gaussJoint_mix hR (columns_length R A.length F) hd (fun j : Fin A.length => A[j].2) h ht
  rw [← scale_eq_mix _ _ (columns_length R A.length F), Matrix.det_diagonal, Finset.abs_prod] at e1
  rw [e, e1]
  congr 1
  rw [← List.prod_ofFn]
  congr 1
  refine List.ext_getElem (by simp) fun i h1 h2 => by simp

theorem gaussTE_affine {R l k c : Nat} (hR : 2 ≤ R) {f f' : Nat → ℝ} {g g' d d' z z' : Nat → List ℝ} (hg : ∀ i, (g i).length = l)
    (hd : ∀ i, (d i).length = k) (hz : ∀ i, (z i).length = c) {a b e oa ob oe : ℝ} (ha : a ≠ 0) (hb : b ≠ 0) (he : e ≠ 0)
    (hf' : ∀ i < R, f' i = b * f i + ob) (hg' : ∀ i < R, g' i = (g i).map (fun x => a * x + oa))
    (hd' : ∀ i < R, d' i = (d i).map (fun x => b * x + ob)) (hz' : ∀ i < R, z' i = (z i).map (fun x => e * x + oe)) (h : ℝ) :
    gaussTE R l k c f' g' d' z' h = gaussTE R l k c f g d z h := by
  unfold gaussTE
  congr 1
  refine List.map_congr_left fun t ht => ?_
  have ht' := List.mem_range.1 ht
  set La := List.replicate l (a, oa)
  set Lb := List.replicate k (b, ob)
  set Le := List.replicate c (e, oe)
  have na : ∀ p ∈ La, p.1 ≠ 0 := fun p hp => by rw [List.eq_of_mem_replicate hp]; exact ha
  have nb : ∀ p ∈ Lb, p.1 ≠ 0 := fun p hp => by rw [List.eq_of_mem_replicate hp]; exact hb
  have ne : ∀ p ∈ Le, p.1 ≠ 0 := fun p hp => by rw [List.eq_of_mem_replicate hp]; exact he
  have pa : (La.map (fun p : ℝ × ℝ => |p.1|)).prod = |a| ^ l := by simp [La]
  have pb : (Lb.map (fun p : ℝ × ℝ => |p.1|)).prod = |b| ^ k := by simp [Lb]
  have pe : (Le.map (fun p : ℝ × ℝ => |p.1|)).prod = |e| ^ c := by simp [Le]
  have fa : ∀ i, affRow La (g i) = (g i).map (fun x => a * x + oa) := fun i => affRow_replicate (hg i)
  have fb : ∀ i, affRow Lb (d i) = (d i).map (fun x => b * x + ob) := fun i => affRow_replicate (hd i)
  have fe : ∀ i, affRow Le (z i) = (z i).map (fun x => e * x + oe) := fun i => affRow_replicate (hz i)
  have lla : La.length = l := by simp [La]
  have llb : Lb.length = k := by simp [Lb]
  have lle : Le.length = c := by simp [Le]
  have f1 : ∀ i, affRow [(b, ob)] [f i] = [b * f i + ob] := fun i => rfl
  rw [rowDensity_affine hR (F := fun i => g i ++ d i ++ [f i] ++ z i) (F' := fun i => g' i ++ d' i ++ [f' i] ++ z' i)
      (A := La ++ Lb ++ [(b, ob)] ++ Le) (fun i => by simp [hg, hd, hz]; omega) (by simp [lla, llb, lle]; omega) (by
        intro p hp
        simp only [List.mem_append, List.mem_singleton] at hp
        rcases hp with ((hp | hp) | rfl) | hp
        · exact na p hp
        · exact nb p hp
        · exact hb
        · exact ne p hp) (fun i hi => by
        rw [affRow_append (by simp [lla, llb, hg, hd]), affRow_append (by simp [lla, llb, hg, hd]), affRow_append (by simp [lla, hg]), fa, fb, fe, f1,
          hg' i hi, hd' i hi, hz' i hi, hf' i hi]) h ht',
    rowDensity_affine hR (F := fun i => d i ++ z i) (F' := fun i => d' i ++ z' i) (A := Lb ++ Le)
      (fun i => by simp [hd, hz]) (by simp [llb, lle]) (by
        intro p hp
        simp only [List.mem_append] at hp
        rcases hp with hp | hp
        · exact nb p hp
        · exact ne p hp) (fun i hi => by
        rw [affRow_append (by simp [llb, hd]), fb, fe, hd' i hi, hz' i hi]) h ht',
    rowDensity_affine hR (F := fun i => d i ++ [f i] ++ z i) (F' := fun i => d' i ++ [f' i] ++ z' i) (A := Lb ++ [(b, ob)] ++ Le)
      (fun i => by simp [hd, hz]; omega) (by simp [llb, lle]; omega) (by
        intro p hp
        simp only [List.mem_append, List.mem_singleton] at hp
        rcases hp with (hp | rfl) | hp
        · exact nb p hp
        · exact hb
        · exact ne p hp) (fun i hi => by
        rw [affRow_append (by simp [llb, hd]), affRow_append (by simp [llb, hd]), fb, fe, f1, hd' i hi, hz' i hi, hf' i hi]) h ht',
    rowDensity_affine hR (F := fun i => g i ++ d i ++ z i) (F' := fun i => g' i ++ d' i ++ z' i) (A := La ++ Lb ++ Le)
      (fun i => by simp [hg, hd, hz]; omega) (by simp [lla, llb, lle]; omega) (by
        intro p hp
        simp only [List.mem_append] at hp
        rcases hp with (hp | hp) | hp
        · exact na p hp
        · exact nb p hp
        · exact ne p hp) (fun i hi => by
        rw [affRow_append (by simp [lla, llb, hg, hd]), affRow_append (by simp [lla, hg]), fa, fb, fe,
          hg' i hi, hd' i hi, hz' i hi]) h ht']
  simp only [List.map_append, List.prod_append, pa, pb, pe, List.map_cons, List.map_nil, List.prod_cons, List.prod_nil, mul_one]
  have ha' : |a| ^ l ≠ 0 := pow_ne_zero _ (abs_ne_zero.2 ha)
  have hb' : |b| ^ k ≠ 0 := pow_ne_zero _ (abs_ne_zero.2 hb)
  have hb1 : |b| ≠ 0 := abs_ne_zero.2 hb
  have he' : |e| ^ c ≠ 0 := pow_ne_zero _ (abs_ne_zero.2 he)
  rw [div_mul_div_comm, div_mul_div_comm]
  rw [show |b| ^ k * |b| * |e| ^ c * (|a| ^ l * |b| ^ k * |e| ^ c) = |a| ^ l * |b| ^ k * |b| * |e| ^ c * (|b| ^ k * |e| ^ c) by ring]
  rw [div_div_div_cancel_right₀]
  exact mul_ne_zero (mul_ne_zero (mul_ne_zero (mul_ne_zero ha' hb') hb1) he') (mul_ne_zero hb' he')

/-- Transfer entropy does not depend on the units of the two series (each may be rescaled and shifted on its own). -/
theorem C71_te_affine (eig : Eig) (he : EigOK eig) (source dest : List ℝ) (l k s : Nat) (hs : 0 < s) (hl : 0 < l) (hk : 0 < k)
    (hm : max k l * s < source.length) (hlen : source.length = dest.length) (hR : 2 ≤ numRows dest.length (max k l) s)
    (h : ℝ) (hh : 0 < h) (w : Int) (hw : 1 ≤ w) (b : Base) (hb : b.Valid) (rnd : SrcRandom) (hr : rnd.Lawful)
    (a oa c oc : ℝ) (ha : a ≠ 0) (hc : c ≠ 0)
    (hsp : Spread (columns (numRows dest.length (max k l) s) (l + k + 1 + 0) (fun i =>
      histRow source (max k l) s l ((srcSel rnd (numRows dest.length (max k l) s)).getD i 0) ++ histRow dest (max k l) s k i ++
        [dest.getD ((max k l + i) * s) 0] ++ [])))
    (hsp' : Spread (columns (numRows dest.length (max k l) s) (l + k + 1 + 0) (fun i =>
      histRow (source.map (fun x => a * x + oa)) (max k l) s l ((srcSel rnd (numRows dest.length (max k l) s)).getD i 0) ++
        histRow (dest.map (fun x => c * x + oc)) (max k l) s k i ++
        [(dest.map (fun x => c * x + oc)).getD ((max k l + i) * s) 0] ++ []))) :
    ∃ v, kernelTE source dest (teParams l k s) (some (.int 0)) none (gaussCfg eig h w) b rnd = .ok v ∧
      kernelTE (source.map (fun x => a * x + oa)) (dest.map (fun x => c * x + oc)) (teParams l k s) (some (.int 0)) none
        (gaussCfg eig h w) b rnd = .ok v := by
  refine ⟨_, C71_te_value eig he source dest l k s hs hl hk hm hlen hR h hh w hw b hb rnd hr hsp, ?_⟩
  have key := C71_te_value eig he (source.map (fun x => a * x + oa)) (dest.map (fun x => c * x + oc)) l k s hs hl hk
    (by simpa using hm) (by simpa using hlen) (by simpa using hR) h hh w hw b hb rnd hr
  simp only [List.length_map] at key
  rw [key hsp']
  congr 2
  have hidx : ∀ i < numRows dest.length (max k l) s, (max k l + i) * s < dest.length := fun i hi =>
    (lt_numRows hs (by omega)).1 hi
  have hsel : ∀ i < numRows dest.length (max k l) s, (srcSel rnd (numRows dest.length (max k l) s)).getD i 0 <
      numRows dest.length (max k l) s := by
    intro i hi
    have hl' : i < (srcSel rnd (numRows dest.length (max k l) s)).length := by rw [srcSel_length hr]; exact hi
    rw [List.getD_eq_getElem?_getD, List.getElem?_eq_getElem hl', Option.getD_some]
    exact srcSel_lt hr _ _ (List.getElem_mem _)
  refine gaussTE_affine hR (by simp [histRow]) (by simp [histRow]) (by simp) ha hc one_ne_zero (oa := oa) (ob := oc) (oe := 0)
    (fun i hi => ?_) (fun i hi => ?_) (fun i hi => ?_) (fun i _ => by simp) h
  · have := hidx i hi
    simp [List.getD_eq_getElem?_getD, this]
  · exact histRow_map _ (le_max_right k l) (by rw [hlen]; exact hidx _ (hsel i hi))
  · exact histRow_map _ (le_max_left k l) (hidx i hi)

example (eig : Eig) (he : EigOK eig) := C71_te_affine eig he [0, 1, 0, 1, 7] [0, 0, 1, 1, 0] 1 1 1 one_pos one_pos one_pos (by norm_num) rfl
  (by simp [numRows]) 1 one_pos 1 le_rfl (.num 2) (by norm_num [Base.Valid]) {} lawful_none (-2) 5 3 1 (by norm_num) (by norm_num) (gEx_te 7)
  (by
    have h := gSpread_affine (r := 1 / 3) (by norm_num) gEx_cov gEx_ne ![-2, 3, 3] ![5, 1, 1] (by intro j; fin_cases j <;> norm_num)
    convert h using 1
    funext j
    fin_cases j <;> rfl)

/-- The same for conditional transfer entropy. -/
theorem C71_cte_affine (eig : Eig) (he : EigOK eig) (source dest cond : List ℝ) (l k c s : Nat) (hs : 0 < s) (hl : 0 < l) (hk : 0 < k)
    (hc : 0 < c) (hm : max (max k l) c * s < source.length) (hlen : source.length = dest.length) (hlen2 : cond.length = dest.length)
    (hR : 2 ≤ numRows dest.length (max (max k l) c) s) (h : ℝ) (hh : 0 < h) (w : Int) (hw : 1 ≤ w) (b : Base) (hb : b.Valid)
    (α oa β ob γ oc : ℝ) (hα : α ≠ 0) (hβ : β ≠ 0) (hγ : γ ≠ 0)
    (hsp : Spread (columns (numRows dest.length (max (max k l) c) s) (l + k + 1 + c) (fun i =>
      histRow source (max (max k l) c) s l i ++ histRow dest (max (max k l) c) s k i ++
        [dest.getD ((max (max k l) c + i) * s) 0] ++ histRow cond (max (max k l) c) s c i)))
    (hsp' : Spread (columns (numRows dest.length (max (max k l) c) s) (l + k + 1 + c) (fun i =>
      histRow (source.map (fun x => α * x + oa)) (max (max k l) c) s l i ++
        histRow (dest.map (fun x => β * x + ob)) (max (max k l) c) s k i ++
        [(dest.map (fun x => β * x + ob)).getD ((max (max k l) c + i) * s) 0] ++
        histRow (cond.map (fun x => γ * x + oc)) (max (max k l) c) s c i))) :
    ∃ v, kernelCTE source dest (some cond) (teParams l k s) (.int c) (some (.int 0)) none (gaussCfg eig h w) b = .ok v ∧
      kernelCTE (source.map (fun x => α * x + oa)) (dest.map (fun x => β * x + ob)) (some (cond.map (fun x => γ * x + oc)))
        (teParams l k s) (.int c) (some (.int 0)) none (gaussCfg eig h w) b = .ok v := by
  refine ⟨_, C71_cte_value eig he source dest cond l k c s hs hl hk hc hm hlen hlen2 hR h hh w hw b hb hsp, ?_⟩
  have key := C71_cte_value eig he (source.map (fun x => α * x + oa)) (dest.map (fun x => β * x + ob)) (cond.map (fun x => γ * x + oc))
    l k c s hs hl hk hc (by simpa using hm) (by simpa using hlen) (by simpa using hlen2) (by simpa using hR) h hh w hw b hb
  simp only [List.length_map] at key
  rw [key hsp']
  congr 2
  have hidx : ∀ i < numRows dest.length (max (max k l) c) s, (max (max k l) c + i) * s < dest.length := fun i hi =>
    (lt_numRows hs (by omega)).1 hi
  refine gaussTE_affine hR (by simp [histRow]) (by simp [histRow]) (by simp [histRow]) hα hβ hγ (oa := oa) (ob := ob) (oe := oc)
    (fun i hi => ?_) (fun i hi => ?_) (fun i hi => ?_) (fun i hi => ?_) h
  · have := hidx i hi
    simp only [List.getD_eq_getElem?_getD, List.getElem?_map]
    rw [List.getElem?_eq_getElem this]
    rfl
  · exact histRow_map _ (by omega) (by rw [hlen]; exact hidx _ hi)
  · exact histRow_map _ (by omega) (hidx i hi)
  · exact histRow_map _ (by omega) (by rw [hlen2]; exact hidx _ hi)

example (eig : Eig) (he : EigOK eig) := C71_cte_affine eig he [0, 1, 0, 1, 0, 1, 0, 1, 7] [0, 0, 1, 1, 0, 0, 1, 1, 0] [0, 0, 0, 0, 1, 1, 1, 1, 7]
  1 1 1 1 one_pos one_pos one_pos one_pos (by norm_num) rfl rfl (by simp [numRows]) 1 one_pos 1 le_rfl (.num 2) (by norm_num [Base.Valid])
  (-2) 5 3 1 4 0 (by norm_num) (by norm_num) (by norm_num)
  (by
    convert gFour_spread using 1
    funext j
    fin_cases j <;> rfl)
  (by
    have h := gSpread_affine (r := 2 / 7) (by norm_num) gFour_cov gFour_ne ![-2, 3, 3, 4] ![5, 1, 1, 0] (by intro j; fin_cases j <;> norm_num)
    convert h using 1
    funext j
    fin_cases j <;> rfl)

end Verif
