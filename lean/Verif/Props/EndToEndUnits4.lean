import Verif.Props.EndToEndUnits3

/-!
# C95: units and origins through the public functions (Rényi and Tsallis)

Origins never matter.  A common unit adds `d · log|c|` to the Rényi entropy and nothing to the Rényi information measures of two
variables; the Tsallis entropy is only pseudo-additive, `1 + (1 - q) T' = (|c|^d)^(1 - q) (1 + (1 - q) T)`.
-/

namespace Verif

open Spec

variable {W : World} {a : PyName} {kw : Kw} {b : Base} {cond : CondKw PyData} {l k s : Nat}

/-- **C95** `im.entropy(x, approach="renyi", alpha=q)` in another unit -/
theorem C95_renyi_entropy (hc : Call W .h .renyi a kw b) (hb : b.Valid) (v : KVar) (n : Nat) (H : v.Sample n)
    (k : Nat) (hk : 0 < k) (hkn : k < n) (h1 : kwOr kw "k" (.int 4) = .int k) (order : PyArg) (q : ℝ)
    (h2 : (kwOr kw "alpha" .none).toArg = some order) (hq0 : order.posNumber = some q) (hq : q < k + 1)
    (ρ : Nat → ℝ) (hρ : ∀ t < n, IsKthDist n k t (dists (some 2) v.samples t) (ρ t)) (hex : ∃ t < n, ρ t ≠ 0)
    (hρ1 : q = 1 → ∀ t < n, ρ t ≠ 0) (c : ℝ) (h0 : c ≠ 0) (o : Nat → ℝ) :
    ∃ h, imEntropy W [.ofKVar v] a .absent kw = .ok h ∧
      imEntropy W [.ofKVar (v.affine c o)] a .absent kw = .ok (h + v.dim * Real.log |c| / b.ln) := by
  have key := fun v => (e2e_h_renyi hc.name hc.accepted (data := [.ofKVar v]) (k := .int k) (by rw [h1]; rfl) h2 hc.base).1
  simp only [List.map_cons, List.map_nil, toKArg_ofKVar] at key
  simp only [key]
  exact C64_renyi_affine v n H c h0 o k hk hkn order q hq0 hq b hb ρ hρ hex hρ1

/-- **C95** `im.entropy(x, approach="tsallis", q=q)` in another unit -/
theorem C95_tsallis_entropy (hc : Call W .h .tsallis a kw b) (v : KVar) (n : Nat) (H : v.Sample n)
    (k : Nat) (hk : 0 < k) (hkn : k < n) (h1 : kwOr kw "k" (.int 4) = .int k) (order : PyArg) (q : ℝ)
    (h2 : (kwOr kw "q" .none).toArg = some order) (hq0 : order.posNumber = some q) (hq1 : q ≠ 1) (hq : q < k + 1)
    (ρ : Nat → ℝ) (hρ : ∀ t < n, IsKthDist n k t (dists (some 2) v.samples t) (ρ t)) (hex : ∃ t < n, ρ t ≠ 0)
    (c : ℝ) (h0 : c ≠ 0) (o : Nat → ℝ) :
    ∃ T T', imEntropy W [.ofKVar v] a .absent kw = .ok T ∧ imEntropy W [.ofKVar (v.affine c o)] a .absent kw = .ok T' ∧
      1 + (1 - q) * T' = (|c| ^ v.dim) ^ (1 - q) * (1 + (1 - q) * T) := by
  have key := fun v => (e2e_h_tsallis hc.name hc.accepted (data := [.ofKVar v]) (k := .int k) (by rw [h1]; rfl) h2 hc.base).1
  simp only [List.map_cons, List.map_nil, toKArg_ofKVar] at key
  simp only [key]
  exact C64_tsallis_affine v n H c h0 o k hk hkn order q hq0 hq1 hq b ρ hρ hex

/-- Rényi/Tsallis conditional transfer entropy: a common unit and origins act on the embedded variables -/
theorem units_expCTE (val : ExpVal) (source dest z : List ℝ) (l k e s : Nat) (hs : 0 < s) (hl : 0 < l) (hk : 0 < k) (he : 0 < e)
    (hm : max (max k l) e * s < source.length) (hlen : source.length = dest.length) (hlen2 : z.length = dest.length)
    (kn order : PyArg) (b : Base) (c ox oy oz : ℝ)
    (hcmi : ∀ (x y w : KVar) (oX oY oW : Nat → ℝ), CMISamples [x, y] w (numRows dest.length (max (max k l) e) s) →
      w = .two ⟨k + e, (List.range (numRows dest.length (max (max k l) e) s)).map
        (fun i => histRow dest (max (max k l) e) s k i ++ histRow z (max (max k l) e) s e i)⟩ →
      expCMI val [x.affine c oX, y.affine c oY] (some (w.affine c oW)) (some 0) false kn order noNoise none b =
        expCMI val [x, y] (some w) (some 0) false kn order noNoise none b) :
    expCTE val (source.map (fun x => c * x + ox)) (dest.map (fun x => c * x + oy)) (some (z.map (fun x => c * x + oz))) (teParams l k s)
        (.int e) (some (.int 0)) none kn order none none none b =
      expCTE val source dest (some z) (teParams l k s) (.int e) (some (.int 0)) none kn order none none none b := by
  have hm' : max (max k l) e * s < dest.length := by rw [← hlen]; exact hm
  obtain ⟨H, e1⟩ := C65_cte_is_cmi val source dest z l k e s hs hl hk he hm hlen hlen2 kn order b
  obtain ⟨-, e2⟩ := C65_cte_is_cmi val (source.map (fun x => c * x + ox)) (dest.map (fun x => c * x + oy))
    (z.map (fun x => c * x + oz)) l k e s hs hl hk he (by simpa using hm) (by simpa using hlen) (by simpa using hlen2) kn order b
  simp only [List.length_map] at e2
  rw [units_fut dest _ s hs hm' c oy, units_hist source dest.length _ s l hs hlen hm' (by omega) c ox,
    units_both dest z dest.length _ s k e hs rfl hlen2 hm' (by omega) (by omega) c oy oz] at e2
  rw [e1, e2]
  exact hcmi _ _ _ (fun _ => oy) (fun _ => ox) (fun j => if j < k then oy else oz) H rfl

/-! ### Rényi: origins -/

/-- **C95** Rényi mutual information of any number of variables: origins do not matter (nor whether the call is refused). -/
theorem C95_renyi_mi_origin (hcl : Call W .mi .renyi a kw b) (hc : cond.isVal = false) (hp : Plain kw)
    (h0 : kw "noise_level" = some (.int 0)) (L : List (KVar × (Nat → ℝ))) (n : Nat) (H : MISamples (L.map Prod.fst) n) {kn order : PyArg}
    (h1 : (kwOr kw "k" (.int 4)).toArg = some kn) (h2 : (kwOr kw "alpha" .none).toArg = some order) :
    imMI W (L.map (fun q => .ofKVar (q.1.affine 1 q.2))) a cond kw = imMI W (L.map (fun q => .ofKVar q.1)) a cond kw := by
  have h2' : 2 ≤ L.length := by simpa using H.two
  have key := fun (data : List PyData) (hd : 2 ≤ data.length) (xs : List KVar) (hx : data.mapM PyData.toKVar = some xs) =>
    e2e_mi_renyi hc hcl.name hd hcl.accepted h1 h2 (v := 0) (by simp only [kwOr, h0, Option.getD_some]; exact toNoise_zero)
      (nm := false) (by rw [hp.normalize]; rfl) (o := some 0) (by rw [hp.offset]; rfl) hcl.base hx
  rw [key _ (by simpa using h2') _ (units_kvars L 1).1, key _ (by simpa using h2') _ (units_kvars L 1).2, noise2_none]
  exact C65_mi_shift renyiVal L n H kn order b

/-- **C95** Rényi conditional mutual information -/
theorem C95_renyi_cmi_origin (hcl : Call W .cmi .renyi a kw b) (hp : Plain kw)
    (h0 : kw "noise_level" = some (.int 0)) (L : List (KVar × (Nat → ℝ))) (z : KVar) (oz : Nat → ℝ) (n : Nat)
    (H : CMISamples (L.map Prod.fst) z n) {kn order : PyArg}
    (h1 : (kwOr kw "k" (.int 4)).toArg = some kn) (h2 : (kwOr kw "alpha" .none).toArg = some order) :
    ∃ r, CmiIs W (L.map (fun q => .ofKVar q.1)) a (.ofKVar z) kw r ∧
      CmiIs W (L.map (fun q => .ofKVar (q.1.affine 1 q.2))) a (.ofKVar (z.affine 1 oz)) kw r := by
  have h2' : 2 ≤ L.length := by simpa using H.mi.two
  have key := fun (data : List PyData) (hd : 2 ≤ data.length) (xs : List KVar) (hx : data.mapM PyData.toKVar = some xs) (z : KVar) =>
    e2e_cmi_renyi hcl.name hd hcl.accepted h1 h2 (v := 0) (by simp only [kwOr, h0, Option.getD_some]; exact toNoise_zero)
      (nm := false) (by rw [hp.normalize]; rfl) (o := some 0) (by rw [hp.offset]; rfl) hcl.base hx (toKVar_ofKVar z)
  simp only [noise2_none, show ∀ i, noNoise i = none from fun _ => rfl] at key
  have k1 := key _ (by simpa using h2') _ (units_kvars L 1).1 z
  have k2 := key _ (by simpa using h2') _ (units_kvars L 1).2 (z.affine 1 oz)
  rw [C65_cmi_shift renyiVal L z oz n H kn order b] at k2
  exact ⟨_, k1, k2⟩

/-- **C95** Rényi transfer entropy -/
theorem C95_renyi_te_origin (hcl : Call W .te .renyi a kw b) (hc : cond.isVal = false) (hh : History kw l k s)
    (h0 : kw "noise_level" = some (.int 0)) (hs : 0 < s)
    (hl : 0 < l) (hk : 0 < k) (source dest : List ℝ) (hm : max k l * s < source.length) (hlen : source.length = dest.length)
    {kn order : PyArg} (h1 : (kwOr kw "k" (.int 4)).toArg = some kn) (h2 : (kwOr kw "alpha" .none).toArg = some order) (ox oy : ℝ) :
    imTE W [.reals (source.map (· + ox)), .reals (dest.map (· + oy))] a cond kw = imTE W [.reals source, .reals dest] a cond kw := by
  have key := fun (source dest : List ℝ) => e2e_te_renyi hc hcl.name hcl.accepted h1 h2 (v := 0) (by simp only [kwOr, h0, Option.getD_some]; exact toNoise_zero)
      hh.u hh.st hh.sh hh.dh hh.o hcl.base (x := source) (y := dest) (dx := .reals source) (dy := .reals dest) rfl rfl
  simp only [noise1_zero] at key
  rw [key, key]
  exact C65_te_shift renyiVal source dest l k s hs hl hk hm hlen kn order b {} lawful_none ox oy

/-- **C95** Rényi conditional transfer entropy -/
theorem C95_renyi_cte_origin {e : Nat} (hcl : Call W .cte .renyi a kw b) (hh : History kw l k s)
    (hcd : kwOr kw "cond_hist_len" (.int 1) = .int e) (h0 : kw "noise_level" = some (.int 0)) (hs : 0 < s)
    (hl : 0 < l) (hk : 0 < k) (he : 0 < e) (source dest z : List ℝ) (hm : max (max k l) e * s < source.length)
    (hlen : source.length = dest.length) (hlen2 : z.length = dest.length)
    {kn order : PyArg} (h1 : (kwOr kw "k" (.int 4)).toArg = some kn) (h2 : (kwOr kw "alpha" .none).toArg = some order) (ox oy oz : ℝ) :
    ∃ r, CteIs W (.reals source) (.reals dest) a (.reals z) kw r ∧
      CteIs W (.reals (source.map (· + ox))) (.reals (dest.map (· + oy))) a (.reals (z.map (· + oz))) kw r := by
  have key := fun (source dest z : List ℝ) => e2e_cte_renyi hcl.name hcl.accepted h1 h2 (v := 0) (by simp only [kwOr, h0, Option.getD_some]; exact toNoise_zero)
      hh.u hh.st hh.sh hh.dh (condArg hcd) hh.o hcl.base (x := source) (y := dest) (dx := .reals source) (dy := .reals dest) rfl rfl
      (dz := .reals z) (z := z) rfl
  simp only [noise1_zero] at key
  have k1 := key source dest z
  have k2 := key (source.map (· + ox)) (dest.map (· + oy)) (z.map (· + oz))
  have e := units_expCTE renyiVal source dest z l k e s hs hl hk he hm hlen hlen2 kn order b 1 ox oy oz
    (fun x y w oX oY oW H _ => C65_cmi_shift renyiVal [(x, oX), (y, oY)] w oW _ H kn order b)
  simp only [one_mul] at e
  rw [show ({ srcHist := .int l, destHist := .int k, step := .int s } : TEParams) = teParams l k s from rfl] at k1 k2
  rw [e] at k2
  exact ⟨_, k1, k2⟩

/-! ### Tsallis: origins -/

/-- **C95** Tsallis mutual information of any number of variables: origins do not matter (nor whether the call is refused). -/
theorem C95_tsallis_mi_origin (hcl : Call W .mi .tsallis a kw b) (hc : cond.isVal = false) (hp : Plain kw)
    (h0 : kw "noise_level" = some (.int 0)) (L : List (KVar × (Nat → ℝ))) (n : Nat) (H : MISamples (L.map Prod.fst) n) {kn order : PyArg}
    (h1 : (kwOr kw "k" (.int 4)).toArg = some kn) (h2 : (kwOr kw "q" .none).toArg = some order) :
    imMI W (L.map (fun q => .ofKVar (q.1.affine 1 q.2))) a cond kw = imMI W (L.map (fun q => .ofKVar q.1)) a cond kw := by
  have h2' : 2 ≤ L.length := by simpa using H.two
  have key := fun (data : List PyData) (hd : 2 ≤ data.length) (xs : List KVar) (hx : data.mapM PyData.toKVar = some xs) =>
    e2e_mi_tsallis hc hcl.name hd hcl.accepted h1 h2 (v := 0) (by simp only [kwOr, h0, Option.getD_some]; exact toNoise_zero)
      (nm := false) (by rw [hp.normalize]; rfl) (o := some 0) (by rw [hp.offset]; rfl) hcl.base hx
  rw [key _ (by simpa using h2') _ (units_kvars L 1).1, key _ (by simpa using h2') _ (units_kvars L 1).2, noise2_none]
  exact C65_mi_shift tsallisVal L n H kn order b

/-- **C95** Tsallis conditional mutual information -/
theorem C95_tsallis_cmi_origin (hcl : Call W .cmi .tsallis a kw b) (hp : Plain kw)
    (h0 : kw "noise_level" = some (.int 0)) (L : List (KVar × (Nat → ℝ))) (z : KVar) (oz : Nat → ℝ) (n : Nat)
    (H : CMISamples (L.map Prod.fst) z n) {kn order : PyArg}
    (h1 : (kwOr kw "k" (.int 4)).toArg = some kn) (h2 : (kwOr kw "q" .none).toArg = some order) :
    ∃ r, CmiIs W (L.map (fun q => .ofKVar q.1)) a (.ofKVar z) kw r ∧
      CmiIs W (L.map (fun q => .ofKVar (q.1.affine 1 q.2))) a (.ofKVar (z.affine 1 oz)) kw r := by
  have h2' : 2 ≤ L.length := by simpa using H.mi.two
  have key := fun (data : List PyData) (hd : 2 ≤ data.length) (xs : List KVar) (hx : data.mapM PyData.toKVar = some xs) (z : KVar) =>
    e2e_cmi_tsallis hcl.name hd hcl.accepted h1 h2 (v := 0) (by simp only [kwOr, h0, Option.getD_some]; exact toNoise_zero)
      (nm := false) (by rw [hp.normalize]; rfl) (o := some 0) (by rw [hp.offset]; rfl) hcl.base hx (toKVar_ofKVar z)
  simp only [noise2_none, show ∀ i, noNoise i = none from fun _ => rfl] at key
  have k1 := key _ (by simpa using h2') _ (units_kvars L 1).1 z
  have k2 := key _ (by simpa using h2') _ (units_kvars L 1).2 (z.affine 1 oz)
  rw [C65_cmi_shift tsallisVal L z oz n H kn order b] at k2
  exact ⟨_, k1, k2⟩

/-- **C95** Tsallis transfer entropy -/
theorem C95_tsallis_te_origin (hcl : Call W .te .tsallis a kw b) (hc : cond.isVal = false) (hh : History kw l k s)
    (h0 : kw "noise_level" = some (.int 0)) (hs : 0 < s)
    (hl : 0 < l) (hk : 0 < k) (source dest : List ℝ) (hm : max k l * s < source.length) (hlen : source.length = dest.length)
    {kn order : PyArg} (h1 : (kwOr kw "k" (.int 4)).toArg = some kn) (h2 : (kwOr kw "q" .none).toArg = some order) (ox oy : ℝ) :
    imTE W [.reals (source.map (· + ox)), .reals (dest.map (· + oy))] a cond kw = imTE W [.reals source, .reals dest] a cond kw := by
  have key := fun (source dest : List ℝ) => e2e_te_tsallis hc hcl.name hcl.accepted h1 h2 (v := 0) (by simp only [kwOr, h0, Option.getD_some]; exact toNoise_zero)
      hh.u hh.st hh.sh hh.dh hh.o hcl.base (x := source) (y := dest) (dx := .reals source) (dy := .reals dest) rfl rfl
  simp only [noise1_zero] at key
  rw [key, key]
  exact C65_te_shift tsallisVal source dest l k s hs hl hk hm hlen kn order b {} lawful_none ox oy

/-- **C95** Tsallis conditional transfer entropy -/
theorem C95_tsallis_cte_origin {e : Nat} (hcl : Call W .cte .tsallis a kw b) (hh : History kw l k s)
    (hcd : kwOr kw "cond_hist_len" (.int 1) = .int e) (h0 : kw "noise_level" = some (.int 0)) (hs : 0 < s)
    (hl : 0 < l) (hk : 0 < k) (he : 0 < e) (source dest z : List ℝ) (hm : max (max k l) e * s < source.length)
    (hlen : source.length = dest.length) (hlen2 : z.length = dest.length)
    {kn order : PyArg} (h1 : (kwOr kw "k" (.int 4)).toArg = some kn) (h2 : (kwOr kw "q" .none).toArg = some order) (ox oy oz : ℝ) :
    ∃ r, CteIs W (.reals source) (.reals dest) a (.reals z) kw r ∧
      CteIs W (.reals (source.map (· + ox))) (.reals (dest.map (· + oy))) a (.reals (z.map (· + oz))) kw r := by
  have key := fun (source dest z : List ℝ) => e2e_cte_tsallis hcl.name hcl.accepted h1 h2 (v := 0) (by simp only [kwOr, h0, Option.getD_some]; exact toNoise_zero)
      hh.u hh.st hh.sh hh.dh (condArg hcd) hh.o hcl.base (x := source) (y := dest) (dx := .reals source) (dy := .reals dest) rfl rfl
      (dz := .reals z) (z := z) rfl
  simp only [noise1_zero] at key
  have k1 := key source dest z
  have k2 := key (source.map (· + ox)) (dest.map (· + oy)) (z.map (· + oz))
  have e := units_expCTE tsallisVal source dest z l k e s hs hl hk he hm hlen hlen2 kn order b 1 ox oy oz
    (fun x y w oX oY oW H _ => C65_cmi_shift tsallisVal [(x, oX), (y, oY)] w oW _ H kn order b)
  simp only [one_mul] at e
  rw [show ({ srcHist := .int l, destHist := .int k, step := .int s } : TEParams) = teParams l k s from rfl] at k1 k2
  rw [e] at k2
  exact ⟨_, k1, k2⟩

/-! ### Rényi: a common unit -/

/-- **C95** Rényi mutual information: a common unit and an origin for every column -/
theorem C95_renyi_mi (hcl : Call W .mi .renyi a kw b) (hb : b.Valid) (hc : cond.isVal = false) (hp : Plain kw)
    (h0 : kw "noise_level" = some (.int 0)) (L : List (KVar × (Nat → ℝ))) (n : Nat) (H : MISamples (L.map Prod.fst) n)
    (k : Nat) (hk : 0 < k) (hkn : k < n) (h1 : kwOr kw "k" (.int 4) = .int k) (order : PyArg) (q : ℝ)
    (h2 : (kwOr kw "alpha" .none).toArg = some order) (hq0 : order.posNumber = some q) (hq : q < k + 1)
    (hpos : ∀ v ∈ L.map Prod.fst, ∀ t < n, ∀ ε, IsKthDist n k t (dists (some 2) v.samples t) ε → 0 < ε) (c : ℝ) (hc0 : c ≠ 0) :
    ∃ v, imMI W (L.map (fun q => .ofKVar q.1)) a cond kw = .ok v ∧
      imMI W (L.map (fun q => .ofKVar (q.1.affine c q.2))) a cond kw = .ok v := by
  have h2' : 2 ≤ L.length := by simpa using H.two
  have key := fun (data : List PyData) (hd : 2 ≤ data.length) (xs : List KVar) (hx : data.mapM PyData.toKVar = some xs) =>
    e2e_mi_renyi hc hcl.name hd hcl.accepted (k := .int k) (by rw [h1]; rfl) h2 (v := 0) (by simp only [kwOr, h0, Option.getD_some]; exact toNoise_zero)
      (nm := false) (by rw [hp.normalize]; rfl) (o := some 0) (by rw [hp.offset]; rfl) hcl.base hx
  rw [key _ (by simpa using h2') _ (units_kvars L c).1, key _ (by simpa using h2') _ (units_kvars L c).2, noise2_none]
  exact C65_mi_renyi_scale L n H c hc0 k hk hkn order q hq0 hq b hb hpos

/-- **C95** Rényi conditional mutual information of `m` variables: `(m - 2) · d_z · log|c|` is added, nothing for two variables. -/
theorem C95_renyi_cmi (hcl : Call W .cmi .renyi a kw b) (hb : b.Valid) (hp : Plain kw)
    (h0 : kw "noise_level" = some (.int 0)) (L : List (KVar × (Nat → ℝ))) (z : KVar) (oz : Nat → ℝ) (n : Nat)
    (H : CMISamples (L.map Prod.fst) z n)
    (k : Nat) (hk : 0 < k) (hkn : k < n) (h1 : kwOr kw "k" (.int 4) = .int k) (order : PyArg) (q : ℝ)
    (h2 : (kwOr kw "alpha" .none).toArg = some order) (hq0 : order.posNumber = some q) (hq : q < k + 1)
    (hpos : ∀ t < n, ∀ ε, IsKthDist n k t (dists (some 2) z.samples t) ε → 0 < ε) (c : ℝ) (hc0 : c ≠ 0) :
    ∃ v, CmiIs W (L.map (fun q => .ofKVar q.1)) a (.ofKVar z) kw (.ok v) ∧
      CmiIs W (L.map (fun q => .ofKVar (q.1.affine c q.2))) a (.ofKVar (z.affine c oz)) kw
        (.ok (v + ((L.length : ℝ) - 2) * z.dim * Real.log |c| / b.ln)) := by
  have h2' : 2 ≤ L.length := by simpa using H.mi.two
  have key := fun (data : List PyData) (hd : 2 ≤ data.length) (xs : List KVar) (hx : data.mapM PyData.toKVar = some xs) (z : KVar) =>
    e2e_cmi_renyi hcl.name hd hcl.accepted (k := .int k) (by rw [h1]; rfl) h2 (v := 0) (by simp only [kwOr, h0, Option.getD_some]; exact toNoise_zero)
      (nm := false) (by rw [hp.normalize]; rfl) (o := some 0) (by rw [hp.offset]; rfl) hcl.base hx (toKVar_ofKVar z)
  simp only [noise2_none, show ∀ i, noNoise i = none from fun _ => rfl] at key
  obtain ⟨v, e1, e2⟩ := C65_cmi_renyi_scale L z oz n H c hc0 k hk hkn order q hq0 hq b hb hpos
  have k1 := key _ (by simpa using h2') _ (units_kvars L c).1 z
  have k2 := key _ (by simpa using h2') _ (units_kvars L c).2 (z.affine c oz)
  rw [e1] at k1
  rw [e2] at k2
  exact ⟨v, k1, k2⟩

/-- **C95** Rényi transfer entropy: a common unit, an origin for each series -/
theorem C95_renyi_te (hcl : Call W .te .renyi a kw b) (hb : b.Valid) (hc : cond.isVal = false) (hh : History kw l k s)
    (h0 : kw "noise_level" = some (.int 0)) (hs : 0 < s)
    (hl : 0 < l) (hk : 0 < k) (source dest : List ℝ) (hm : max k l * s < source.length) (hlen : source.length = dest.length)
    (kn : Nat) (hkn : 0 < kn) (h1 : kwOr kw "k" (.int 4) = .int kn) (hR : kn < numRows dest.length (max k l) s) (order : PyArg) (q : ℝ)
    (h2 : (kwOr kw "alpha" .none).toArg = some order) (hq0 : order.posNumber = some q) (hq : q < kn + 1)
    (hpos : ∀ t < numRows dest.length (max k l) s, ∀ ε, IsKthDist (numRows dest.length (max k l) s) kn t
      (dists (some 2) (histRows dest dest.length (max k l) s k) t) ε → 0 < ε) (c : ℝ) (hc0 : c ≠ 0) (ox oy : ℝ) :
    imTE W [.reals (source.map (fun x => c * x + ox)), .reals (dest.map (fun x => c * x + oy))] a cond kw =
      imTE W [.reals source, .reals dest] a cond kw := by
  have key := fun (source dest : List ℝ) => e2e_te_renyi hc hcl.name hcl.accepted (k := .int kn) (by rw [h1]; rfl) h2 (v := 0) (by simp only [kwOr, h0, Option.getD_some]; exact toNoise_zero)
      hh.u hh.st hh.sh hh.dh hh.o hcl.base (x := source) (y := dest) (dx := .reals source) (dy := .reals dest) rfl rfl
  simp only [noise1_zero] at key
  rw [key, key]
  exact C65_te_renyi_scale source dest l k s hs hl hk hm hlen kn hkn hR order q hq0 hq b hb {} lawful_none c hc0 ox oy hpos

/-- **C95** Rényi conditional transfer entropy: a common unit, an origin for each series -/
theorem C95_renyi_cte {e : Nat} (hcl : Call W .cte .renyi a kw b) (hb : b.Valid) (hh : History kw l k s)
    (hcd : kwOr kw "cond_hist_len" (.int 1) = .int e) (h0 : kw "noise_level" = some (.int 0)) (hs : 0 < s)
    (hl : 0 < l) (hk : 0 < k) (he : 0 < e) (source dest z : List ℝ) (hm : max (max k l) e * s < source.length)
    (hlen : source.length = dest.length) (hlen2 : z.length = dest.length)
    (kn : Nat) (hkn : 0 < kn) (h1 : kwOr kw "k" (.int 4) = .int kn) (hR : kn < numRows dest.length (max (max k l) e) s) (order : PyArg) (q : ℝ)
    (h2 : (kwOr kw "alpha" .none).toArg = some order) (hq0 : order.posNumber = some q) (hq : q < kn + 1)
    (hpos : ∀ t < numRows dest.length (max (max k l) e) s, ∀ ε, IsKthDist (numRows dest.length (max (max k l) e) s) kn t
      (dists (some 2) ((List.range (numRows dest.length (max (max k l) e) s)).map
        (fun i => histRow dest (max (max k l) e) s k i ++ histRow z (max (max k l) e) s e i)) t) ε → 0 < ε)
    (c : ℝ) (hc0 : c ≠ 0) (ox oy oz : ℝ) :
    ∃ r, CteIs W (.reals source) (.reals dest) a (.reals z) kw r ∧
      CteIs W (.reals (source.map (fun x => c * x + ox))) (.reals (dest.map (fun x => c * x + oy))) a
        (.reals (z.map (fun x => c * x + oz))) kw r := by
  have key := fun (source dest z : List ℝ) => e2e_cte_renyi hcl.name hcl.accepted (k := .int kn) (by rw [h1]; rfl) h2 (v := 0) (by simp only [kwOr, h0, Option.getD_some]; exact toNoise_zero)
      hh.u hh.st hh.sh hh.dh (condArg hcd) hh.o hcl.base (x := source) (y := dest) (dx := .reals source) (dy := .reals dest) rfl rfl
      (dz := .reals z) (z := z) rfl
  simp only [noise1_zero] at key
  have k1 := key source dest z
  have k2 := key (source.map (fun x => c * x + ox)) (dest.map (fun x => c * x + oy)) (z.map (fun x => c * x + oz))
  have e := units_expCTE renyiVal source dest z l k e s hs hl hk he hm hlen hlen2 (.int kn) order b c ox oy oz
    (fun x y w oX oY oW H hw => C65_cmi_renyi_scale_two x y w oX oY oW _ H c hc0 kn hkn hR order q hq0 hq b hb (by subst hw; exact hpos))
  rw [show ({ srcHist := .int l, destHist := .int k, step := .int s } : TEParams) = teParams l k s from rfl] at k1 k2
  rw [e] at k2
  exact ⟨_, k1, k2⟩

end Verif
