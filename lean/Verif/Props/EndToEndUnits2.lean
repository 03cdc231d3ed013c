import Verif.Props.EndToEnd3
import Verif.Lemmas.Units
import Verif.Props.Kernel2
import Verif.Props.KlEntropy

/-!
# C95: units and origins through the public functions (continuous approaches)

`v.affine c o` is the variable `v` in another unit and with another origin: `c · x + oⱼ`, an offset for every column.
-/

namespace Verif

open Spec

variable {W : World} {a : PyName} {kw : Kw} {b : Base} {cond : CondKw PyData}

/-! ### metric (Kozachenko–Leonenko, Kraskov–Stögbauer–Grassberger, Frenzel–Pompe), without noise -/

/-- **C95** `im.entropy(x, approach="metric", noise_level=0)` in another unit: `d · log|c|` is added, in the unit of the base. -/
theorem C95_metric_entropy (hc : Call W .h .metric a kw b) (hb : b.Valid) (v : KVar) (n : Nat) (H : v.Sample n) (p : PNorm)
    (hp : p.ok = true) (k : Nat) (hk : 0 < k) (hkn : k < n) (h1 : kwOr kw "k" (.int 4) = .int k)
    (i : Int) (hi : i = 1 ∨ i = 2) (h2 : kwOr kw "ksg_id" (.int 1) = .int i) (h3 : kw "noise_level" = some (.int 0))
    (h4 : (kwOr kw "minkowski_p" .inf).toPNorm = some p)
    (hpos : ∀ t < n, ∀ ε, IsKthDist n k t (dists p.order v.samples t) ε → 0 < ε) (c : ℝ) (h0 : c ≠ 0) (o : Nat → ℝ) :
    ∃ h, imEntropy W [.ofKVar v] a .absent kw = .ok h ∧
      imEntropy W [.ofKVar (v.affine c o)] a .absent kw = .ok (h + v.dim * Real.log |c| / b.ln) := by
  have key := fun v => (e2e_h_metric hc.name hc.accepted (data := [.ofKVar v]) (k := .int k) (by rw [h1]; rfl) (i := i) (by rw [h2]; rfl)
    (v := 0) (by simp [kwOr, h3, PyVal.toNum]) (mp := p) h4 hc.base).1
  simp only [List.map_cons, List.map_nil, toKArg_ofKVar, noise2_zero, lt_irrefl, decide_false] at key
  simp only [key]
  exact C52_affine v n H c h0 o p hp k hk hkn i hi b hb hpos

theorem units_kvars (L : List (KVar × (Nat → ℝ))) (c : ℝ) :
    (L.map (fun q => PyData.ofKVar q.1)).mapM PyData.toKVar = some (L.map Prod.fst) ∧
      (L.map (fun q => PyData.ofKVar (q.1.affine c q.2))).mapM PyData.toKVar = some (L.map (fun q => q.1.affine c q.2)) := by
  constructor
  · simpa [List.map_map, Function.comp_def] using mapM_kvars (L.map Prod.fst)
  · simpa [List.map_map, Function.comp_def] using mapM_kvars (L.map (fun q => q.1.affine c q.2))

/-- **C95** mutual information of any number of variables: a common unit and an origin for every column. -/
theorem C95_metric_mi (hcl : Call W .mi .metric a kw b) (hb : b.Valid) (hc : cond.isVal = false) (hp : Plain kw)
    (h0 : kw "noise_level" = some (.int 0)) (L : List (KVar × (Nat → ℝ))) (n : Nat) (H : MIArgs (L.map Prod.fst) n) (p : PNorm)
    (hpn : p.ok = true) (k : Nat) (hk : 0 < k) (h1 : kwOr kw "k" (.int 4) = .int k)
    (h2 : (kwOr kw "minkowski_p" .inf).toPNorm = some p) (i : Int) (hi : i = 1 ∨ i = 2) (h3 : kwOr kw "ksg_id" (.int 1) = .int i)
    (c : ℝ) (hc0 : c ≠ 0) :
    ∃ v, imMI W (L.map (fun q => .ofKVar q.1)) a cond kw = .ok v ∧
      imMI W (L.map (fun q => .ofKVar (q.1.affine c q.2))) a cond kw = .ok v := by
  have h2' : 2 ≤ L.length := by simpa using H.two
  have key := fun (data : List PyData) (hd : 2 ≤ data.length) (xs : List KVar) (hx : data.mapM PyData.toKVar = some xs) =>
    e2e_mi_metric hc hcl.name hd hcl.accepted (k := k) (by rw [h1]; simp [PyVal.toNat]) (i := i)
      (by rw [h3]; rfl) (v := 0) (by simp only [kwOr, h0, Option.getD_some]; exact toNoise_zero) (mp := p) h2
      (nm := false) (by rw [hp.normalize]; rfl) (o := some 0) (by rw [hp.offset]; rfl) hcl.base hx
  rw [key _ (by simpa using h2') _ (units_kvars L c).1, key _ (by simpa using h2') _ (units_kvars L c).2, noise2_none]
  exact C51_affine L n H c hc0 p hpn k hk i hi b hb

/-- **C95** conditional mutual information. -/
theorem C95_metric_cmi (hcl : Call W .cmi .metric a kw b) (hb : b.Valid) (hp : Plain kw)
    (h0 : kw "noise_level" = some (.int 0)) (L : List (KVar × (Nat → ℝ))) (z : KVar) (oz : Nat → ℝ) (n : Nat)
    (H : CMIArgs (L.map Prod.fst) z n) (p : PNorm)
    (hpn : p.ok = true) (k : Nat) (hk : 0 < k) (h1 : kwOr kw "k" (.int 4) = .int k)
    (h2 : (kwOr kw "minkowski_p" .inf).toPNorm = some p) (i : Int) (hi : i = 1 ∨ i = 2) (h3 : kwOr kw "ksg_id" (.int 1) = .int i)
    (c : ℝ) (hc0 : c ≠ 0) :
    ∃ v, CmiIs W (L.map (fun q => .ofKVar q.1)) a (.ofKVar z) kw (.ok v) ∧
      CmiIs W (L.map (fun q => .ofKVar (q.1.affine c q.2))) a (.ofKVar (z.affine c oz)) kw (.ok v) := by
  have h2' : 2 ≤ L.length := by simpa using H.two
  have key := fun (data : List PyData) (hd : 2 ≤ data.length) (xs : List KVar) (hx : data.mapM PyData.toKVar = some xs) (z : KVar) =>
    e2e_cmi_metric hcl.name hd hcl.accepted (k := k) (by rw [h1]; simp [PyVal.toNat]) (i := i)
      (by rw [h3]; rfl) (v := 0) (by simp only [kwOr, h0, Option.getD_some]; exact toNoise_zero) (mp := p) h2
      (nm := false) (by rw [hp.normalize]; rfl) (o := some 0) (by rw [hp.offset]; rfl) hcl.base hx (toKVar_ofKVar z)
  simp only [noise2_none, noiseSum_zero] at key
  obtain ⟨v, e1, e2⟩ := C62_affine L z oz n H c hc0 p hpn k hk i hi b hb
  have k1 := key _ (by simpa using h2') _ (units_kvars L c).1 z
  have k2 := key _ (by simpa using h2') _ (units_kvars L c).2 (z.affine c oz)
  rw [e1] at k1
  rw [e2] at k2
  exact ⟨v, k1, k2⟩

variable {l k s : Nat}

/-- **C95** transfer entropy: a common unit, an origin for each series. -/
theorem C95_metric_te (hcl : Call W .te .metric a kw b) (hb : b.Valid) (hc : cond.isVal = false) (hh : History kw l k s)
    (h0 : kw "noise_level" = some (.int 0)) (hs : 0 < s)
    (hl : 0 < l) (hk : 0 < k) (source dest : List ℝ) (hm : max k l * s < source.length) (hlen : source.length = dest.length)
    (p : PNorm) (hpn : p.ok = true) (kn : Nat) (hkn : 0 < kn)
    (h1 : kwOr kw "k" (.int 4) = .int kn) (h2 : (kwOr kw "minkowski_p" .inf).toPNorm = some p)
    (i : Int) (hi : i = 1 ∨ i = 2) (h3 : kwOr kw "ksg_id" (.int 1) = .int i) (c : ℝ) (hc0 : c ≠ 0) (ox oy : ℝ) :
    ∃ v, imTE W [.reals source, .reals dest] a cond kw = .ok v ∧
      imTE W [.reals (source.map (fun x => c * x + ox)), .reals (dest.map (fun x => c * x + oy))] a cond kw = .ok v := by
  have key := fun (source dest : List ℝ) => e2e_te_metric hc hcl.name hcl.accepted (k := kn) (by rw [h1]; simp [PyVal.toNat]) (i := i)
      (by rw [h3]; rfl) (v := 0) (by simp only [kwOr, h0, Option.getD_some]; exact toNoise_zero) (mp := p) h2 hh.u hh.st hh.sh hh.dh
      hh.o hcl.base (x := source) (y := dest) (dx := .reals source) (dy := .reals dest) rfl rfl
  simp only [noise1_zero] at key
  rw [key, key]
  exact C63_te_affine source dest l k s hs hl hk hm hlen p hpn kn hkn i hi b hb {} lawful_none c hc0 ox oy

/-- **C95** conditional transfer entropy. -/
theorem C95_metric_cte {e : Nat} (hcl : Call W .cte .metric a kw b) (hb : b.Valid) (hh : History kw l k s)
    (hcd : kwOr kw "cond_hist_len" (.int 1) = .int e) (h0 : kw "noise_level" = some (.int 0)) (hs : 0 < s)
    (hl : 0 < l) (hk : 0 < k) (he : 0 < e) (source dest z : List ℝ) (hm : max (max k l) e * s < source.length)
    (hlen : source.length = dest.length) (hlen2 : z.length = dest.length)
    (p : PNorm) (hpn : p.ok = true) (kn : Nat) (hkn : 0 < kn)
    (h1 : kwOr kw "k" (.int 4) = .int kn) (h2 : (kwOr kw "minkowski_p" .inf).toPNorm = some p)
    (i : Int) (hi : i = 1 ∨ i = 2) (h3 : kwOr kw "ksg_id" (.int 1) = .int i) (c : ℝ) (hc0 : c ≠ 0) (ox oy oz : ℝ) :
    ∃ v, CteIs W (.reals source) (.reals dest) a (.reals z) kw (.ok v) ∧
      CteIs W (.reals (source.map (fun x => c * x + ox))) (.reals (dest.map (fun x => c * x + oy))) a
        (.reals (z.map (fun x => c * x + oz))) kw (.ok v) := by
  have key := fun (source dest z : List ℝ) => e2e_cte_metric hcl.name hcl.accepted (k := kn) (by rw [h1]; simp [PyVal.toNat]) (i := i)
      (by rw [h3]; rfl) (v := 0) (by simp only [kwOr, h0, Option.getD_some]; exact toNoise_zero) (mp := p) h2 hh.u hh.st hh.sh hh.dh
      (condArg hcd) hh.o hcl.base (x := source) (y := dest) (dx := .reals source) (dy := .reals dest) rfl rfl (dz := .reals z)
      (z := z) rfl
  simp only [noise1_zero] at key
  have hm' : max (max k l) e * s < dest.length := by rw [← hlen]; exact hm
  obtain ⟨H, v, e1, e2⟩ := C63_cte_is_cmi source dest z l k e s hs hl hk he hm hlen hlen2 p hpn kn hkn i hi b hb
  obtain ⟨H', v', e1', e2'⟩ := C63_cte_is_cmi (source.map (fun x => c * x + ox)) (dest.map (fun x => c * x + oy))
    (z.map (fun x => c * x + oz)) l k e s hs hl hk he (by simpa using hm) (by simpa using hlen) (by simpa using hlen2) p hpn kn hkn i hi b hb
  simp only [List.length_map] at e2'
  rw [units_fut dest _ s hs hm' c oy, units_hist source dest.length _ s l hs hlen hm' (by omega) c ox,
    units_both dest z dest.length _ s k e hs rfl hlen2 hm' (by omega) (by omega) c oy oz] at e2'
  obtain ⟨w, g1, g2⟩ := C62_affine
    [(.two ⟨1, futRows dest dest.length (max (max k l) e) s⟩, fun _ => oy),
      (.two ⟨l, histRows source dest.length (max (max k l) e) s l⟩, fun _ => ox)]
    (.two ⟨k + e, (List.range (numRows dest.length (max (max k l) e) s)).map (fun i =>
      histRow dest (max (max k l) e) s k i ++ histRow z (max (max k l) e) s e i)⟩)
    (fun j => if j < k then oy else oz) _ H c hc0 p hpn kn hkn i hi b hb
  simp only [List.map_cons, List.map_nil] at g1 g2
  have hv : v = w := by rw [e2] at g1; injection g1
  have hv' : v' = w := by
    have : (Except.ok v' : Except Exc ℝ) = .ok w := e2'.symm.trans g2
    injection this
  subst hv
  subst hv'
  have k1 := key source dest z
  have k2 := key (source.map (fun x => c * x + ox)) (dest.map (fun x => c * x + oy)) (z.map (fun x => c * x + oz))
  rw [show ({ srcHist := .int l, destHist := .int k, step := .int s } : TEParams) = teParams l k s from rfl] at k1 k2
  rw [e1] at k1
  rw [e1'] at k2
  exact ⟨_, k1, k2⟩

end Verif
