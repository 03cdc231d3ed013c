import Verif.Props.EndToEndUnits2
import Verif.Props.Gauss10

/-!
# C95: units and origins through the public functions (kernel approach)

Box kernel: the bandwidth is in the unit of the data, so a change of unit by `c` needs the bandwidth `|c| · h`; a change of origin
needs nothing.  Gaussian kernel: the bandwidth is a multiple of the standard deviation, so nothing has to be changed, and every
variable can have its own unit.
-/

namespace Verif

open Spec

variable {W : World} {a : PyName} {kw kw' : Kw} {b : Base} {cond : CondKw PyData}

theorem units_assure (v : KVar) (c : ℝ) (o : Nat → ℝ) : assure2d (v.affine c o) = ⟨(assure2d v).cols, affRows c o (assure2d v).rows⟩ := by
  cases v with
  | one xs => simp [KVar.affine, assure2d, affRows]
  | two m => simp [KVar.affine, assure2d, affRows]

theorem units_boxEntropy {S : List (List ℝ)} {d : Nat} (hS : Points S d) (hN : 2 ≤ S.length) {h c : ℝ} (hh : 0 < h) (hc : c ≠ 0) (o : Nat → ℝ) :
    boxEntropy (affRows c o S) d (|c| * h) = boxEntropy S d h + d * Real.log |c| := by
  have hc' : 0 < |c| := abs_pos.2 hc
  unfold boxEntropy
  have e0 : affRows c o S = S.map (fun r => r.mapIdx (fun j x => c * x + o j)) := rfl
  have hpos : (0 : ℝ) < S.length := by exact_mod_cast (by omega : 0 < S.length)
  have e : ∀ x ∈ S, -Real.log (boxDensity (affRows c o S) d (|c| * h) (x.mapIdx (fun j x => c * x + o j))) =
      - Real.log (boxDensity S d h x) + d * Real.log |c| := by
    intro x hx
    have hp := boxDensity_pos (d := d) hh hx
    have : boxDensity (affRows c o S) d (|c| * h) (x.mapIdx (fun j x => c * x + o j)) = boxDensity S d h x / |c| ^ d := by
      unfold boxDensity
      rw [e0, boxCount_map (h := h) (fun r => r.mapIdx (fun j x => c * x + o j)) (fun y hy => units_inBox hc o (by rw [hS x hx, hS y hy])),
        List.length_map, mul_pow]
      field_simp
    rw [this, Real.log_div hp.ne' (by positivity), Real.log_pow]
    ring
  rw [show (affRows c o S).map (fun x => -Real.log (boxDensity (affRows c o S) d (|c| * h) x)) =
      S.map (fun x => - Real.log (boxDensity S d h x) + d * Real.log |c|) by
    conv_lhs => arg 2; rw [e0]
    rw [List.map_map]
    exact List.map_congr_left e]
  unfold mean
  rw [sum_map_add', List.length_map, List.length_map, List.map_const', List.sum_replicate, nsmul_eq_mul]
  field_simp

/-- **C95** `im.entropy(x, approach="kernel", kernel="box", bandwidth=h)` and the same data in another unit with the bandwidth in that
unit: `d · log|c|` is added, in the unit of the base. -/
theorem C95_box_entropy (hc : Call W .h .kernel a kw b) (hc' : Call W .h .kernel a kw' b) (hb : b.Valid) (v : KVar) (hv : v.WF)
    (hN : 2 ≤ v.len) (h c : ℝ) (hh : 0 < h) (h0 : c ≠ 0) (o : Nat → ℝ) (w w' : Int)
    (h1 : kw "bandwidth" = some (.num h)) (h2 : kw "kernel" = some (.str "box")) (h3 : kwOr kw "workers" (.int 1) = .int w)
    (h1' : kw' "bandwidth" = some (.num (|c| * h))) (h2' : kw' "kernel" = some (.str "box")) (h3' : kwOr kw' "workers" (.int 1) = .int w') :
    ∃ H, imEntropy W [.ofKVar v] a .absent kw = .ok H ∧
      imEntropy W [.ofKVar (v.affine c o)] a .absent kw' = .ok (H + v.dim * Real.log |c| / b.ln) := by
  refine ⟨_, C82_box_entropy hc hb v hv hN h hh w h1 h2 h3, ?_⟩
  rw [C82_box_entropy hc' hb (v.affine c o) (affine_wf c o hv) (by rw [affine_len]; exact hN) (|c| * h)
    (mul_pos (abs_pos.2 h0) hh) w' h1' h2' h3', units_assure, units_boxEntropy hv (by
      have : (assure2d v).rows.length = v.len := by cases v <;> simp [assure2d, KVar.len]
      omega) hh h0]
  congr 1
  unfold KVar.dim
  ring

/-- **C95** mutual information of any number of variables. -/
theorem C95_box_mi (hcl : Call W .mi .kernel a kw b) (hcl' : Call W .mi .kernel a kw' b) (hb : b.Valid) (hc : cond.isVal = false)
    (hp : Plain kw) (hp' : Plain kw') (L : List (KVar × (Nat → ℝ))) (n : Nat) (H : MIArgs (L.map Prod.fst) n) (h c : ℝ) (hh : 0 < h)
    (h0 : c ≠ 0) (w w' : Int)
    (h1 : kwOr kw "bandwidth" .none = .num h) (h2 : kwOr kw "kernel" .none = .str "box") (h3 : kwOr kw "workers" (.int 1) = .int w)
    (h1' : kwOr kw' "bandwidth" .none = .num (|c| * h)) (h2' : kwOr kw' "kernel" .none = .str "box")
    (h3' : kwOr kw' "workers" (.int 1) = .int w') :
    ∃ v, imMI W (L.map (fun q => .ofKVar q.1)) a cond kw = .ok v ∧
      imMI W (L.map (fun q => .ofKVar (q.1.affine c q.2))) a cond kw' = .ok v := by
  have hl : ∀ q ∈ L, q.1.len = n := fun q hq => H.len _ (List.mem_map.2 ⟨q, hq, rfl⟩)
  have hw : ∀ q ∈ L, q.1.WF := fun q hq => H.wf _ (List.mem_map.2 ⟨q, hq, rfl⟩)
  have H' : MIArgs (L.map (fun q => q.1.affine c q.2)) n := by
    refine ⟨by simpa using H.two, H.pos, ?_, ?_⟩
    · intro v hv
      obtain ⟨q, hq, rfl⟩ := List.mem_map.1 hv
      rw [affine_len, hl q hq]
    · intro v hv
      obtain ⟨q, hq, rfl⟩ := List.mem_map.1 hv
      exact affine_wf c q.2 (hw q hq)
  have e1 : (L.map (fun q => PyData.ofKVar q.1)) = (L.map Prod.fst).map .ofKVar := by simp [List.map_map, Function.comp_def]
  have e2 : (L.map (fun q => PyData.ofKVar (q.1.affine c q.2))) = (L.map (fun q => q.1.affine c q.2)).map .ofKVar := by
    simp [List.map_map, Function.comp_def]
  rw [e1, e2]
  refine ⟨_, C82_mi_box hcl hb hc hp _ n H h hh w h1 h2 h3, ?_⟩
  rw [C82_mi_box hcl' hb hc hp' _ n H' (|c| * h) (mul_pos (abs_pos.2 h0) hh) w' h1' h2' h3']
  congr 2
  have hs : ∀ q ∈ L, (q.1.affine c q.2).samples = affRows c q.2 q.1.samples := fun q _ => by simp [KVar.samples, units_assure]
  have hok : ∀ q ∈ L, q.1.samples.length = n ∧ ∃ d, Points q.1.samples d := fun q hq => ⟨by
    have : (assure2d q.1).rows.length = q.1.len := by cases q.1 <;> simp [assure2d, KVar.len]
    rw [KVar.samples, this, hl q hq], _, hw q hq⟩
  unfold boxMI
  congr 1
  refine List.map_congr_left fun t ht => ?_
  have ht' := List.mem_range.1 ht
  have g1 := units_neighbours (n := n) (h := h) h0 (L.map (fun q => (q.1.samples, q.2))) (by
    intro p hp
    obtain ⟨q, hq, rfl⟩ := List.mem_map.1 hp
    exact hok q hq) ht'
  have g2 : ∀ q ∈ L, neighbours n (|c| * h) [affRows c q.2 q.1.samples] t = neighbours n h [q.1.samples] t := by
    intro q hq
    have := units_neighbours (n := n) (h := h) h0 [(q.1.samples, q.2)] (by simpa using hok q hq) ht'
    simpa using this
  simp only [List.map_map, Function.comp_def] at g1 ⊢
  have g3 : L.map (fun q => (q.1.affine c q.2).samples) = L.map (fun q => affRows c q.2 q.1.samples) := List.map_congr_left hs
  rw [g3, g1]
  congr 2
  congr 1
  exact List.map_congr_left fun q hq => by rw [hs q hq, g2 q hq]

/-- **C95** conditional mutual information. -/
theorem C95_box_cmi (hcl : Call W .cmi .kernel a kw b) (hcl' : Call W .cmi .kernel a kw' b) (hb : b.Valid)
    (hp : Plain kw) (hp' : Plain kw') (x y z : List ℝ) (ox oy oz : ℝ) (n : Nat) (hn : 0 < n) (hx : x.length = n) (hy : y.length = n)
    (hz : z.length = n) (h c : ℝ) (hh : 0 < h) (h0 : c ≠ 0) (w w' : Int)
    (h1 : kwOr kw "bandwidth" .none = .num h) (h2 : kwOr kw "kernel" .none = .str "box") (h3 : kwOr kw "workers" (.int 1) = .int w)
    (h1' : kwOr kw' "bandwidth" .none = .num (|c| * h)) (h2' : kwOr kw' "kernel" .none = .str "box")
    (h3' : kwOr kw' "workers" (.int 1) = .int w') :
    ∃ v, CmiIs W [.reals x, .reals y] a (.reals z) kw (.ok v) ∧
      CmiIs W [.reals (x.map (fun u => c * u + ox)), .reals (y.map (fun u => c * u + oy))] a (.reals (z.map (fun u => c * u + oz))) kw'
        (.ok v) := by
  refine ⟨_, C82_cmi_box hcl hb hp x y z n hn hx hy hz h hh w h1 h2 h3, ?_⟩
  have g := C82_cmi_box hcl' hb hp' (x.map (fun u => c * u + ox)) (y.map (fun u => c * u + oy)) (z.map (fun u => c * u + oz)) n hn
    (by simpa using hx) (by simpa using hy) (by simpa using hz) (|c| * h) (mul_pos (abs_pos.2 h0) hh) w' h1' h2' h3'
  rw [units_smp, units_smp, units_smp, units_boxCMI h0 (by rw [← hx]; exact units_smp_ok x) (by rw [← hy]; exact units_smp_ok y)
    (by rw [← hz]; exact units_smp_ok z)] at g
  exact g

variable {l k s : Nat}

/-- **C95** transfer entropy. -/
theorem C95_box_te (hcl : Call W .te .kernel a kw b) (hcl' : Call W .te .kernel a kw' b) (hb : b.Valid) (hc : cond.isVal = false)
    (hh : History kw l k s) (hh' : History kw' l k s) (hs : 0 < s)
    (hl : 0 < l) (hk : 0 < k) (source dest : List ℝ) (hm : max k l * s < source.length) (hlen : source.length = dest.length)
    (hR : 2 ≤ numRows dest.length (max k l) s) (ox oy h c : ℝ) (hpos : 0 < h) (h0 : c ≠ 0) (w w' : Int)
    (h1 : kwOr kw "bandwidth" .none = .num h) (h2 : kwOr kw "kernel" .none = .str "box") (h3 : kwOr kw "workers" (.int 1) = .int w)
    (h1' : kwOr kw' "bandwidth" .none = .num (|c| * h)) (h2' : kwOr kw' "kernel" .none = .str "box")
    (h3' : kwOr kw' "workers" (.int 1) = .int w') :
    ∃ v, imTE W [.reals source, .reals dest] a cond kw = .ok v ∧
      imTE W [.reals (source.map (fun u => c * u + ox)), .reals (dest.map (fun u => c * u + oy))] a cond kw' = .ok v := by
  refine ⟨_, C82_te_box hcl hb hc hh hs hl hk source dest hm hlen hR h hpos w h1 h2 h3, ?_⟩
  have g := C82_te_box hcl' hb hc hh' hs hl hk (source.map (fun u => c * u + ox)) (dest.map (fun u => c * u + oy)) (by simpa using hm)
    (by simpa using hlen) (by simpa using hR) (|c| * h) (mul_pos (abs_pos.2 h0) hpos) w' h1' h2' h3'
  have hm' : max k l * s < dest.length := by rw [← hlen]; exact hm
  simp only [List.length_map] at g
  rw [units_fut dest _ s hs hm' c oy, units_hist source dest.length _ s l hs hlen hm' (le_max_right _ _) c ox,
    units_hist dest dest.length _ s k hs rfl hm' (le_max_left _ _) c oy,
    units_boxCMI h0 (units_fut_ok _ _ _ _) (units_hist_ok _ _ _ _ _) (units_hist_ok _ _ _ _ _)] at g
  exact g

/-- **C95** conditional transfer entropy. -/
theorem C95_box_cte {e : Nat} (hcl : Call W .cte .kernel a kw b) (hcl' : Call W .cte .kernel a kw' b) (hb : b.Valid)
    (hh : History kw l k s) (hh' : History kw' l k s) (hcd : kwOr kw "cond_hist_len" (.int 1) = .int e)
    (hcd' : kwOr kw' "cond_hist_len" (.int 1) = .int e) (hs : 0 < s) (hl : 0 < l) (hk : 0 < k) (he : 0 < e)
    (source dest z : List ℝ) (hm : max (max k l) e * s < source.length) (hlen : source.length = dest.length)
    (hlen2 : z.length = dest.length) (hR : 2 ≤ numRows dest.length (max (max k l) e) s) (ox oy oz h c : ℝ) (hpos : 0 < h)
    (h0 : c ≠ 0) (w w' : Int)
    (h1 : kwOr kw "bandwidth" .none = .num h) (h2 : kwOr kw "kernel" .none = .str "box") (h3 : kwOr kw "workers" (.int 1) = .int w)
    (h1' : kwOr kw' "bandwidth" .none = .num (|c| * h)) (h2' : kwOr kw' "kernel" .none = .str "box")
    (h3' : kwOr kw' "workers" (.int 1) = .int w') :
    ∃ v, CteIs W (.reals source) (.reals dest) a (.reals z) kw (.ok v) ∧
      CteIs W (.reals (source.map (fun u => c * u + ox))) (.reals (dest.map (fun u => c * u + oy))) a
        (.reals (z.map (fun u => c * u + oz))) kw' (.ok v) := by
  refine ⟨_, C82_cte_box hcl hb hh hcd hs hl hk he source dest z hm hlen hlen2 hR h hpos w h1 h2 h3, ?_⟩
  have g := C82_cte_box hcl' hb hh' hcd' hs hl hk he (source.map (fun u => c * u + ox)) (dest.map (fun u => c * u + oy))
    (z.map (fun u => c * u + oz)) (by simpa using hm) (by simpa using hlen) (by simpa using hlen2) (by simpa using hR) (|c| * h)
    (mul_pos (abs_pos.2 h0) hpos) w' h1' h2' h3'
  have hm' : max (max k l) e * s < dest.length := by rw [← hlen]; exact hm
  simp only [List.length_map] at g
  rw [units_fut dest _ s hs hm' c oy, units_hist source dest.length _ s l hs hlen hm' (by omega) c ox,
    units_both dest z dest.length _ s k e hs rfl hlen2 hm' (by omega) (by omega) c oy oz,
    units_boxCMI h0 (units_fut_ok _ _ _ _) (units_hist_ok _ _ _ _ _) (units_both_ok _ _ _ _ _ _ _)] at g
  exact g

/-! ### Gaussian kernel -/

/-- **C95** `im.entropy(x, approach="kernel", kernel="gaussian")`: in another unit `log|c|` is added, with the same bandwidth. -/
theorem C95_gaussian_entropy (hc : Call W .h .kernel a kw b) (hb : b.Valid) (hE : EigOK W.eig) (xs : List ℝ) (hn : 2 ≤ xs.length)
    (hv : 0 < sampleVar xs) (h : ℝ) (hh : 0 < h) (h1 : kw "bandwidth" = some (.num h))
    (h2 : kw "kernel" = some (.str "gaussian")) (h3 : kwOr kw "workers" (.int 1) = .int 1) (c o : ℝ) (h0 : c ≠ 0) :
    ∃ H, imEntropy W [.reals xs] a .absent kw = .ok H ∧
      imEntropy W [.reals (xs.map (fun x => c * x + o))] a .absent kw = .ok (H + Real.log |c| / b.ln) := by
  have key := fun data => (e2e_h_kernel hc.name hc.accepted (data := data) (h := .num h) (by rw [h1]; rfl) (kn := gaussian W.eig)
    (by rw [h2]; simp [PyVal.toKernel]) (w := 1) (by rw [h3]; rfl) hc.base).1
  rw [key, key]
  exact C71_entropy_affine W.eig hE xs hn hv c h0 o h hh _ (by simp [resolveWorkers]) b hb

/-- **C95** mutual information: every variable in its own unit. -/
theorem C95_gaussian_mi {m n : Nat} (hcl : Call W .mi .kernel a kw b) (hb : b.Valid) (hc : cond.isVal = false) (hp : Plain kw)
    (hE : EigOK W.eig) (X : Fin m → List ℝ) (hm : 2 ≤ m) (hn : 2 ≤ n) (hX : ∀ j, (X j).length = n) (u o : Fin m → ℝ) (hu : ∀ j, u j ≠ 0)
    (hs : Spread X) (hs' : Spread (fun j => (X j).map (fun x => u j * x + o j))) (h : ℝ) (hh : 0 < h)
    (h1 : kwOr kw "bandwidth" .none = .num h) (h2 : kwOr kw "kernel" .none = .str "gaussian")
    (h3 : kwOr kw "workers" (.int 1) = .int 1) :
    ∃ v, imMI W (List.ofFn (fun j => PyData.reals (X j))) a cond kw = .ok v ∧
      imMI W (List.ofFn (fun j => PyData.reals ((X j).map (fun x => u j * x + o j)))) a cond kw = .ok v := by
  have key : ∀ X : Fin m → List ℝ, imMI W (List.ofFn (fun j => PyData.reals (X j))) a cond kw =
      kernelMI (List.ofFn (fun j => KVar.one (X j))) (some 0) false (gaussCfg W.eig h (resolveWorkers W.cpu 1)) b := by
    intro X
    have e : List.ofFn (fun j => PyData.reals (X j)) = (List.ofFn (fun j => KVar.one (X j))).map .ofKVar := by
      rw [List.map_ofFn]; rfl
    rw [e, e2e_mi_kernel hc hcl.name (by simpa using hm) hcl.accepted (h := .num h) (by rw [h1]; rfl) (kn := gaussian W.eig)
      (by rw [h2]; simp [PyVal.toKernel]) (w := 1) (by rw [h3]; rfl) (nm := false) (by rw [hp.normalize]; rfl) (o := some 0)
      (by rw [hp.offset]; rfl) hcl.base (mapM_kvars _)]
    rfl
  rw [key, key]
  exact C71_mi_affine W.eig hE X hm hn hX u o hu hs hs' h hh _ (by simp [resolveWorkers]) b hb

/-- **C95** conditional mutual information. -/
theorem C95_gaussian_cmi {n : Nat} (hcl : Call W .cmi .kernel a kw b) (hb : b.Valid) (hp : Plain kw)
    (hE : EigOK W.eig) (x y z : List ℝ) (hn : 2 ≤ n) (hx : x.length = n) (hy : y.length = n) (hz : z.length = n)
    (u o : Fin 3 → ℝ) (hu : ∀ j, u j ≠ 0) (hs : Spread ![x, y, z])
    (hs' : Spread ![x.map (fun t => u 0 * t + o 0), y.map (fun t => u 1 * t + o 1), z.map (fun t => u 2 * t + o 2)])
    (h : ℝ) (hh : 0 < h) (h1 : kwOr kw "bandwidth" .none = .num h)
    (h2 : kwOr kw "kernel" .none = .str "gaussian") (h3 : kwOr kw "workers" (.int 1) = .int 1) :
    ∃ v, CmiIs W [.reals x, .reals y] a (.reals z) kw (.ok v) ∧
      CmiIs W [.reals (x.map (fun t => u 0 * t + o 0)), .reals (y.map (fun t => u 1 * t + o 1))] a
        (.reals (z.map (fun t => u 2 * t + o 2))) kw (.ok v) := by
  have key := fun (x y z : List ℝ) => e2e_cmi_kernel hcl.name (by simp) hcl.accepted (h := .num h) (by rw [h1]; rfl) (kn := gaussian W.eig)
    (by rw [h2]; simp [PyVal.toKernel]) (w := 1) (by rw [h3]; rfl) (nm := false) (by rw [hp.normalize]; rfl) (o := some 0)
    (by rw [hp.offset]; rfl) hcl.base (data := [.reals x, .reals y]) (mapM_kvars [.one x, .one y]) (dz := .reals z) (z := .one z) rfl
  obtain ⟨v, e1, e2⟩ := C71_cmi_affine W.eig hE x y z hn hx hy hz u o hu hs hs' h hh (resolveWorkers W.cpu 1) (by simp [resolveWorkers]) b hb
  have k1 := key x y z
  have k2 := key (x.map (fun t => u 0 * t + o 0)) (y.map (fun t => u 1 * t + o 1)) (z.map (fun t => u 2 * t + o 2))
  rw [show (⟨.num h, gaussian W.eig, resolveWorkers W.cpu 1⟩ : KdeCfg) = gaussCfg W.eig h (resolveWorkers W.cpu 1) from rfl] at k1 k2
  rw [e1] at k1
  rw [e2] at k2
  exact ⟨v, k1, k2⟩

theorem units_columns (R c : Nat) (F G : Nat → List ℝ) (h : ∀ i < R, F i = G i) : columns R c F = columns R c G := by
  funext j
  unfold columns
  exact List.map_congr_left fun i hi => by rw [h i (List.mem_range.1 hi)]

/-- **C95** transfer entropy: both series in their own unit. -/
theorem C95_gaussian_te (hcl : Call W .te .kernel a kw b) (hb : b.Valid) (hE : EigOK W.eig) (hc : cond.isVal = false)
    (hh : History kw l k s) (hs : 0 < s)
    (hl : 0 < l) (hk : 0 < k) (source dest : List ℝ) (hm : max k l * s < source.length) (hlen : source.length = dest.length)
    (hR : 2 ≤ numRows dest.length (max k l) s) (h : ℝ) (hpos : 0 < h) (h1 : kwOr kw "bandwidth" .none = .num h)
    (h2 : kwOr kw "kernel" .none = .str "gaussian") (h3 : kwOr kw "workers" (.int 1) = .int 1)
    (u ou v ov : ℝ) (hu : u ≠ 0) (hv : v ≠ 0)
    (hsp : Spread (columns (numRows dest.length (max k l) s) (l + k + 1 + 0) (fun i =>
      histRow source (max k l) s l i ++ histRow dest (max k l) s k i ++ [dest.getD ((max k l + i) * s) 0] ++ [])))
    (hsp' : Spread (columns (numRows dest.length (max k l) s) (l + k + 1 + 0) (fun i =>
      histRow (source.map (fun x => u * x + ou)) (max k l) s l i ++ histRow (dest.map (fun x => v * x + ov)) (max k l) s k i ++
        [(dest.map (fun x => v * x + ov)).getD ((max k l + i) * s) 0] ++ []))) :
    ∃ r, imTE W [.reals source, .reals dest] a cond kw = .ok r ∧
      imTE W [.reals (source.map (fun x => u * x + ou)), .reals (dest.map (fun x => v * x + ov))] a cond kw = .ok r := by
  have key := fun (source dest : List ℝ) => e2e_te_kernel hc hcl.name hcl.accepted (h := .num h) (by rw [h1]; rfl) (kn := gaussian W.eig)
    (by rw [h2]; simp [PyVal.toKernel]) (w := 1) (by rw [h3]; rfl) hh.u hh.st hh.sh hh.dh hh.o hcl.base (x := source) (y := dest)
    (dx := .reals source) (dy := .reals dest) rfl rfl
  rw [key, key]
  have sel : ∀ i < numRows dest.length (max k l) s, (srcSel {} (numRows dest.length (max k l) s)).getD i 0 = i := by
    intro i hi
    rw [srcSel_none]
    simp [List.getD_eq_getElem?_getD, hi]
  refine C71_te_affine W.eig hE source dest l k s hs hl hk hm hlen hR h hpos (resolveWorkers W.cpu 1) (by simp [resolveWorkers]) b hb {}
    lawful_none u ou v ov hu hv ?_ ?_
  · rw [units_columns _ _ _ (fun i => histRow source (max k l) s l i ++ histRow dest (max k l) s k i ++
      [dest.getD ((max k l + i) * s) 0] ++ []) (fun i hi => by rw [sel i hi])]
    exact hsp
  · rw [units_columns _ _ _ (fun i => histRow (source.map (fun x => u * x + ou)) (max k l) s l i ++
      histRow (dest.map (fun x => v * x + ov)) (max k l) s k i ++ [(dest.map (fun x => v * x + ov)).getD ((max k l + i) * s) 0] ++ [])
      (fun i hi => by rw [sel i hi])]
    exact hsp'

/-- **C95** conditional transfer entropy: every series in its own unit. -/
theorem C95_gaussian_cte {e : Nat} (hcl : Call W .cte .kernel a kw b) (hb : b.Valid) (hE : EigOK W.eig) (hh : History kw l k s)
    (hcd : kwOr kw "cond_hist_len" (.int 1) = .int e) (hs : 0 < s) (hl : 0 < l) (hk : 0 < k) (he : 0 < e)
    (source dest z : List ℝ) (hm : max (max k l) e * s < source.length) (hlen : source.length = dest.length)
    (hlen2 : z.length = dest.length)
    (hR : 2 ≤ numRows dest.length (max (max k l) e) s) (h : ℝ) (hpos : 0 < h) (h1 : kwOr kw "bandwidth" .none = .num h)
    (h2 : kwOr kw "kernel" .none = .str "gaussian") (h3 : kwOr kw "workers" (.int 1) = .int 1)
    (u ou v ov w ow : ℝ) (hu : u ≠ 0) (hv : v ≠ 0) (hw : w ≠ 0)
    (hsp : Spread (columns (numRows dest.length (max (max k l) e) s) (l + k + 1 + e) (fun i =>
      histRow source (max (max k l) e) s l i ++ histRow dest (max (max k l) e) s k i ++
        [dest.getD ((max (max k l) e + i) * s) 0] ++ histRow z (max (max k l) e) s e i)))
    (hsp' : Spread (columns (numRows dest.length (max (max k l) e) s) (l + k + 1 + e) (fun i =>
      histRow (source.map (fun x => u * x + ou)) (max (max k l) e) s l i ++
        histRow (dest.map (fun x => v * x + ov)) (max (max k l) e) s k i ++
        [(dest.map (fun x => v * x + ov)).getD ((max (max k l) e + i) * s) 0] ++
        histRow (z.map (fun x => w * x + ow)) (max (max k l) e) s e i))) :
    ∃ r, CteIs W (.reals source) (.reals dest) a (.reals z) kw (.ok r) ∧
      CteIs W (.reals (source.map (fun x => u * x + ou))) (.reals (dest.map (fun x => v * x + ov))) a
        (.reals (z.map (fun x => w * x + ow))) kw (.ok r) := by
  have key := fun (source dest z : List ℝ) => e2e_cte_kernel hcl.name hcl.accepted (h := .num h) (by rw [h1]; rfl) (kn := gaussian W.eig)
    (by rw [h2]; simp [PyVal.toKernel]) (w := 1) (by rw [h3]; rfl) hh.u hh.st hh.sh hh.dh (condArg hcd) hh.o hcl.base
    (x := source) (y := dest) (dx := .reals source) (dy := .reals dest) rfl rfl (dz := .reals z) (z := z) rfl
  obtain ⟨r, e1, e2⟩ := C71_cte_affine W.eig hE source dest z l k e s hs hl hk he hm hlen hlen2 hR h hpos (resolveWorkers W.cpu 1)
    (by simp [resolveWorkers]) b hb u ou v ov w ow hu hv hw hsp hsp'
  have k1 := key source dest z
  have k2 := key (source.map (fun x => u * x + ou)) (dest.map (fun x => v * x + ov)) (z.map (fun x => w * x + ow))
  rw [show (⟨.num h, gaussian W.eig, resolveWorkers W.cpu 1⟩ : KdeCfg) = gaussCfg W.eig h (resolveWorkers W.cpu 1) from rfl,
    show ({ srcHist := .int l, destHist := .int k, step := .int s } : TEParams) = teParams l k s from rfl] at k1 k2
  rw [e1] at k1
  rw [e2] at k2
  exact ⟨r, k1, k2⟩

end Verif
