import Verif.Props.EndToEnd2
import Verif.Lemmas.EndToEndTE
import Verif.Lemmas.EndToEndCTE
import Verif.Props.TE3
import Verif.Props.BiasMI
import Verif.Props.Nsb2
import Verif.Props.OrdinalTE2
import Verif.Props.KernelTE
import Verif.Props.Gauss9
import Verif.Props.KsgTE2
import Verif.Props.ExpMI3

/-!
# C82: the public functions return the documented quantities (transfer entropy, conditional transfer entropy)

`source` and `dest` are the first and second positional argument.  `futRows`, `histRows` (`Spec/TE.lean`) are the future and
the histories of the documented embedding.

Concrete calls that meet the hypotheses are in `Props/EndToEndEx.lean`.
-/

namespace Verif

open Spec

variable {W : World} {a : PyName} {kw : Kw} {b : Base} {cond : CondKw PyData} {l k s c : Nat}

theorem History.u (h : History kw l k s) : (kwOr kw "prop_time" (.int 0)).toOptArg = some (some (.int 0)) := by rw [h.prop]; rfl
theorem History.st (h : History kw l k s) : (kwOr kw "step_size" (.int 1)).toArg = some (.int s) := by rw [h.step]; rfl
theorem History.sh (h : History kw l k s) : (kwOr kw "src_hist_len" (.int 1)).toArg = some (.int l) := by rw [h.src]; rfl
theorem History.dh (h : History kw l k s) : (kwOr kw "dest_hist_len" (.int 1)).toArg = some (.int k) := by rw [h.dest]; rfl
theorem History.o (h : History kw l k s) : (kwOr kw "offset" .none).toOptArg = some none := by rw [h.offset]; rfl

/-- **C82** `im.transfer_entropy(source, dest, …)` of integer sequences:
`I(future of dest ; history of source | history of dest)`. -/
theorem C82_te (h : Call W .te .discrete a kw b) (hb : b.Valid) (hc : cond.isVal = false) (hh : History kw l k s) (hs : 0 < s)
    (hl : 0 < l) (hk : 0 < k) (source dest : List Int) (hm : max k l * s < source.length) (hlen : source.length = dest.length)
    (hov : dest.length < 2 ^ 32) :
    imTE W [.ints source, .ints dest] a cond kw =
      .ok (Spec.cmi (futRows dest dest.length (max k l) s) (histRows source dest.length (max k l) s l)
        (histRows dest dest.length (max k l) s k) / b.ln) := by
  rw [← C24_te_is_textbook source dest l k s hs hl hk hm hlen hov b hb]
  exact e2e_te_discrete hc h.name h.accepted hh.u hh.st hh.sh hh.dh hh.o h.base rfl rfl

/-- **C82** Miller–Madow: the same combination of Miller–Madow entropies. -/
theorem C82_te_miller_madow (h : Call W .te .millerMadow a kw b) (hb : b.Valid) (hc : cond.isVal = false) (hh : History kw l k s)
    (hs : 0 < s) (hl : 0 < l) (hk : 0 < k) (source dest : List Int) (hm : max k l * s < source.length)
    (hlen : source.length = dest.length) (hov : dest.length < 2 ^ 32) :
    let F := futRows dest dest.length (max k l) s
    let G := histRows source dest.length (max k l) s l
    let D := histRows dest dest.length (max k l) s k
    imTE W [.ints source, .ints dest] a cond kw =
      .ok ((millerMadow (F.zip D) + millerMadow (G.zip D) - millerMadow (F.zip (G.zip D)) - millerMadow D) / b.ln) := by
  intro F G D
  rw [e2e_te_millerMadow hc h.name h.accepted hh.u hh.st hh.sh hh.dh hh.o h.base (x := source) (y := dest) rfl rfl]
  obtain ⟨f, g, d, R, hR, _, _, _, rfl, rfl, rfl, rfl, _, e⟩ :=
    te_value source dest l k s hs hl hk hm hlen hov hb true lawful_none
  rw [show ({ srcHist := .int l, destHist := .int k, step := .int s } : TEParams) = teParams l k s from rfl, e]
  have hget : ∀ i ∈ List.range (numRows dest.length (max k l) s),
      (srcSel {} (numRows dest.length (max k l) s)).getD i 0 = i := by
    intro i hi
    rw [srcSel_none, List.getD_eq_getElem?_getD]
    simp [List.mem_range.1 hi]
  simp only [F, G, D, histRows, futRows, zip_map_map, hSpec, if_true]
  rw [List.map_congr_left (g := fun i => (histRow source (max k l) s l i, histRow dest (max k l) s k i))
    (f := fun i => (histRow source (max k l) s l _, histRow dest (max k l) s k i)) (fun i hi => by rw [hget i hi]),
    List.map_congr_left (g := fun i => ([dest.getD ((max k l + i) * s) default], histRow source (max k l) s l i,
      histRow dest (max k l) s k i)) (f := fun i => (_, histRow source (max k l) s l _, histRow dest (max k l) s k i))
      (fun i hi => by rw [hget i hi])]

/-- **C82** the six parameter-free bias-corrected estimators. -/
theorem C82_te_bias {f : Fam} {m : Method} (hf : FamMethod f m) (h : Call W .te f a kw b) (hb : b.Valid)
    (hc : cond.isVal = false) (hh : History kw l k s) (hs : 0 < s) (hl : 0 < l) (hk : 0 < k) (source dest : List Int)
    (hm : max k l * s < source.length) (hlen : source.length = dest.length) :
    let F := futRows dest dest.length (max k l) s
    let G := histRows source dest.length (max k l) s l
    let D := histRows dest dest.length (max k l) s k
    imTE W [.ints source, .ints dest] a cond kw =
      .ok ((m.value (F.zip D) + m.value (G.zip D) - m.value (F.zip (G.zip D)) - m.value D) / b.ln) := by
  intro F G D
  have key : ∀ (c : BiasClass) (m : Method), c.Means m → m.Defined (F.zip (G.zip D)) →
      biasTE c source dest (teParams l k s) (some (.int 0)) none b =
      .ok ((m.value (F.zip D) + m.value (G.zip D) - m.value (F.zip (G.zip D)) - m.value D) / b.ln) := fun c m hcm hd =>
    (C66_te c m hcm source dest l k s hs hl hk hm hlen b hb {} lawful_none).1 hd
  cases hf with
  | grassberger =>
    rw [← key _ _ .grassberger trivial]
    exact e2e_te_grassberger hc h.name h.accepted hh.u hh.st hh.sh hh.dh hh.o h.base rfl rfl
  | chaoShen =>
    rw [← key _ _ .chaoShen trivial]
    exact e2e_te_chaoShen hc h.name h.accepted hh.u hh.st hh.sh hh.dh hh.o h.base rfl rfl
  | chaoWangJost =>
    rw [← key _ _ .chaoWangJost trivial]
    exact e2e_te_chaoWangJost hc h.name h.accepted hh.u hh.st hh.sh hh.dh hh.o h.base rfl rfl
  | shrink =>
    rw [← key _ _ .shrink trivial]
    exact e2e_te_shrink hc h.name h.accepted hh.u hh.st hh.sh hh.dh hh.o h.base rfl rfl
  | zhang =>
    rw [← key _ _ .zhang trivial]
    exact e2e_te_zhang hc h.name h.accepted hh.u hh.st hh.sh hh.dh hh.o h.base rfl rfl
  | bonachela =>
    rw [← key _ _ .bonachela trivial]
    exact e2e_te_bonachela hc h.name h.accepted hh.u hh.st hh.sh hh.dh hh.o h.base rfl rfl

/-- **C82** the Bayesian estimator. -/
theorem C82_te_bayes (al : AlphaArg) (K : Option PyArg) {m : Method} (hme : (BiasClass.bayes al K).Means m)
    (h : Call W .te .bayes a kw b) (hb : b.Valid) (h1 : (kw "alpha").bind PyVal.toAlpha = some al)
    (h3 : (kwOr kw "K" .none).toOptArg = some K)
    (hc : cond.isVal = false) (hh : History kw l k s) (hs : 0 < s) (hl : 0 < l) (hk : 0 < k) (source dest : List Int)
    (hm : max k l * s < source.length) (hlen : source.length = dest.length) :
    let F := futRows dest dest.length (max k l) s
    let G := histRows source dest.length (max k l) s l
    let D := histRows dest dest.length (max k l) s k
    imTE W [.ints source, .ints dest] a cond kw =
      .ok ((m.value (F.zip D) + m.value (G.zip D) - m.value (F.zip (G.zip D)) - m.value D) / b.ln) := by
  intro F G D
  rw [e2e_te_bayes hc h.name h.accepted h1 h3 hh.u hh.st hh.sh hh.dh hh.o h.base (x := source) (y := dest) rfl rfl]
  exact (C66_te _ m hme source dest l k s hs hl hk hm hlen b hb {} lawful_none).1 (by cases hme <;> trivial)

/-- **C82** ANSB: finite exactly if some row of the joint embedding repeats. -/
theorem C82_te_ansb (h : Call W .te .ansb a kw b) (hb : b.Valid) (u : ℝ) (hu : 0 ≤ u)
    (h1 : (kwOr kw "undersampled" (.num (1 / 10))).toNum = some u)
    (hc : cond.isVal = false) (hh : History kw l k s) (hs : 0 < s) (hl : 0 < l) (hk : 0 < k) (source dest : List Int)
    (hm : max k l * s < source.length) (hlen : source.length = dest.length) :
    let F := futRows dest dest.length (max k l) s
    let G := histRows source dest.length (max k l) s l
    let D := histRows dest dest.length (max k l) s k
    (¬ (F.zip (G.zip D)).Nodup → imTE W [.ints source, .ints dest] a cond kw =
      .ok ((Method.ansb.value (F.zip D) + Method.ansb.value (G.zip D) - Method.ansb.value (F.zip (G.zip D)) -
        Method.ansb.value D) / b.ln)) ∧
    ((F.zip (G.zip D)).Nodup → imTE W [.ints source, .ints dest] a cond kw = .error .nonFinite) := by
  intro F G D
  rw [e2e_te_ansb hc h.name h.accepted h1 hh.u hh.st hh.sh hh.dh hh.o h.base (x := source) (y := dest) rfl rfl]
  have := C66_te _ _ (.ansb hu) source dest l k s hs hl hk hm hlen b hb {} lawful_none
  exact ⟨fun hn => this.1 hn, fun hn => this.2 (not_not.2 hn)⟩

/-- **C82** NSB. -/
theorem C82_te_nsb (h : Call W .te .nsb a kw b) (hb : b.Valid) (K : Option Nat)
    (hK : kwOr kw "K" .none = (match K with | none => .none | some k => .int k)) (hK0 : ∀ k, K = some k → 0 < k)
    (hc : cond.isVal = false) (hh : History kw l k s) (hs : 0 < s) (hl : 0 < l) (hk : 0 < k) (source dest : List Int)
    (hm : max k l * s < source.length) (hlen : source.length = dest.length) :
    let F := futRows dest dest.length (max k l) s
    let G := histRows source dest.length (max k l) s l
    let D := histRows dest dest.length (max k l) s k
    let ok := Nsb.Defined (F.zip D) K ∧ Nsb.Defined (G.zip D) K ∧ Nsb.Defined (F.zip (G.zip D)) K ∧ Nsb.Defined D K
    (ok → imTE W [.ints source, .ints dest] a cond kw = .ok ((Nsb.value (F.zip D) K +
      Nsb.value (G.zip D) K - Nsb.value (F.zip (G.zip D)) K - Nsb.value D K) / b.ln)) ∧
    (¬ ok → imTE W [.ints source, .ints dest] a cond kw = .error .nonFinite) := by
  intro F G D ok
  rw [e2e_te_nsb hc h.name h.accepted (K := nsbArg K) (by rw [hK]; cases K <;> rfl) hh.u hh.st hh.sh hh.dh hh.o h.base
    (x := source) (y := dest) rfl rfl]
  exact C67_te W.find K hK0 source dest l k s hs hl hk hm hlen b hb {} lawful_none

/-- **C82** ordinal: the transfer entropy of the sequences of ordinal patterns (the same `step_size` is used for the patterns
and for the histories). -/
theorem C82_te_ordinal (h : Call W .te .ordinal a kw b) (hb : b.Valid) (hc : cond.isVal = false) (hh : History kw l k s)
    (d : Nat) (st : Bool) (h1 : kw "embedding_dim" = some (.int d)) (h3 : kwOr kw "stable" (.bool false) = .bool st)
    (hd : 1 ≤ d) (hd' : d ≤ 20) (hs : 1 ≤ s) (hl : 0 < l) (hk : 0 < k) (x y : List ℝ) (hxy : x.length = y.length)
    (hn : (d - 1) * s + max k l * s < x.length) (hov : x.length < 2 ^ 32) (htx : TieFree x d s) (hty : TieFree y d s) :
    let N := x.length - (d - 1) * s
    imTE W [.reals x, .reals y] a cond kw =
      .ok (Spec.cmi (futRows (ordPatterns y d s) N (max k l) s) (histRows (ordPatterns x d s) N (max k l) s l)
        (histRows (ordPatterns y d s) N (max k l) s k) / b.ln) := by
  intro N
  rw [← C57_ordinal_te_is_textbook W.quick x y hxy d s l k hd hd' hs hl hk hn hov st htx hty b hb]
  exact e2e_te_ordinal hc h.name h.accepted (d := .int d) (by rw [h1]; rfl) (st := st) (by rw [h3]; rfl) hh.u hh.st hh.sh hh.dh
    hh.o h.base rfl rfl

/-- **C82** box kernel. -/
theorem C82_te_box (hcl : Call W .te .kernel a kw b) (hb : b.Valid) (hc : cond.isVal = false) (hh : History kw l k s) (hs : 0 < s)
    (hl : 0 < l) (hk : 0 < k) (source dest : List ℝ) (hm : max k l * s < source.length) (hlen : source.length = dest.length)
    (hR : 2 ≤ numRows dest.length (max k l) s) (h : ℝ) (hpos : 0 < h) (w : Int) (h1 : kwOr kw "bandwidth" .none = .num h)
    (h2 : kwOr kw "kernel" .none = .str "box") (h3 : kwOr kw "workers" (.int 1) = .int w) :
    imTE W [.reals source, .reals dest] a cond kw =
      .ok (boxCMI (numRows dest.length (max k l) s) h (futRows dest dest.length (max k l) s)
        (histRows source dest.length (max k l) s l) (histRows dest dest.length (max k l) s k) / b.ln) := by
  rw [← C61_te_value_plain source dest l k s hs hl hk hm hlen hR h hpos (resolveWorkers W.cpu w) b hb]
  exact e2e_te_kernel hc hcl.name hcl.accepted (h := .num h) (by rw [h1]; rfl) (kn := .box)
    (by rw [h2]; simp [PyVal.toKernel]) (w := w) (by rw [h3]; rfl) hh.u hh.st hh.sh hh.dh hh.o hcl.base rfl rfl

/-- **C82** Gaussian kernel. -/
theorem C82_te_gaussian (hcl : Call W .te .kernel a kw b) (hb : b.Valid) (he : EigOK W.eig) (hc : cond.isVal = false)
    (hh : History kw l k s) (hs : 0 < s)
    (hl : 0 < l) (hk : 0 < k) (source dest : List ℝ) (hm : max k l * s < source.length) (hlen : source.length = dest.length)
    (hR : 2 ≤ numRows dest.length (max k l) s) (h : ℝ) (hpos : 0 < h) (h1 : kwOr kw "bandwidth" .none = .num h)
    (h2 : kwOr kw "kernel" .none = .str "gaussian") (h3 : kwOr kw "workers" (.int 1) = .int 1) :
    let R := numRows dest.length (max k l) s
    let f := fun i => dest.getD ((max k l + i) * s) 0
    let g := fun i => histRow source (max k l) s l ((List.range R).getD i 0)
    let d := histRow dest (max k l) s k
    Spread (columns R (l + k + 1 + 0) (fun i => g i ++ d i ++ [f i] ++ [])) →
    imTE W [.reals source, .reals dest] a cond kw = .ok (gaussTE R l k 0 f g d (fun _ => []) h / b.ln) := by
  intro R f g d hsp
  rw [e2e_te_kernel hc hcl.name hcl.accepted (h := .num h) (by rw [h1]; rfl) (kn := gaussian W.eig)
    (by rw [h2]; simp [PyVal.toKernel]) (w := 1) (by rw [h3]; rfl) hh.u hh.st hh.sh hh.dh hh.o hcl.base (x := source) (y := dest)
    rfl rfl]
  exact C71_te_value W.eig he source dest l k s hs hl hk hm hlen hR h hpos (resolveWorkers W.cpu 1) (by simp [resolveWorkers]) b hb
    {} lawful_none hsp

theorem noise1_zero (W : World) (i : Nat) : W.noise1 0 i = none := by simp [World.noise1]

/-- **C82** KSG (Frenzel–Pompe) transfer entropy, without noise: the `ψ` formula for `I(future; source | dest)` of the
embedding. -/
theorem C82_te_metric (hcl : Call W .te .metric a kw b) (hb : b.Valid) (hc : cond.isVal = false) (hh : History kw l k s)
    (h0 : kw "noise_level" = some (.int 0)) (hs : 0 < s)
    (hl : 0 < l) (hk : 0 < k) (source dest : List ℝ) (hm : max k l * s < source.length) (hlen : source.length = dest.length)
    (p : PNorm) (hpn : p.ok = true) (kn : Nat) (hkn : 0 < kn) (hkR : kn < numRows dest.length (max k l) s)
    (h1 : kwOr kw "k" (.int 4) = .int kn) (h2 : (kwOr kw "minkowski_p" .inf).toPNorm = some p) :
    let R := numRows dest.length (max k l) s
    let F := KVar.two ⟨1, futRows dest dest.length (max k l) s⟩
    let G := KVar.two ⟨l, histRows source dest.length (max k l) s l⟩
    let D := KVar.two ⟨k, histRows dest dest.length (max k l) s k⟩
    ∀ (ε : Nat → ℝ) (_ : ∀ t < R, IsKthDist R kn t (jointDists p.order [F.samples, G.samples, D.samples] t) (ε t)),
    (kwOr kw "ksg_id" (.int 1) = .int 1 → imTE W [.reals source, .reals dest] a cond kw =
      .ok (mean ((List.range R).map (fun t => ksgCondI p.order R kn [F.samples, G.samples] D.samples t (ε t))) / b.ln)) ∧
    (kwOr kw "ksg_id" (.int 1) = .int 2 → imTE W [.reals source, .reals dest] a cond kw =
      .ok (mean ((List.range R).map (fun t => ksgCondII p.order R kn [F.samples, G.samples] D.samples t (ε t))) / b.ln)) := by
  intro R F G D ε hε
  have key : ∀ i : Int, i = 1 ∨ i = 2 → kwOr kw "ksg_id" (.int 1) = .int i → imTE W [.reals source, .reals dest] a cond kw =
      .ok (mean ((List.range R).map (fun t => ksgCondVal ⟨kn, i, p⟩ R [F.samples, G.samples] D.samples t (ε t))) / b.ln) := by
    intro i hi hid
    rw [e2e_te_metric hc hcl.name hcl.accepted (k := kn) (by rw [h1]; simp [PyVal.toNat]) (i := i)
      (by rw [hid]; rfl) (v := 0) (by simp only [kwOr, h0, Option.getD_some]; exact toNoise_zero) (mp := p) h2 hh.u hh.st hh.sh hh.dh
      hh.o hcl.base (x := source) (y := dest) rfl rfl, noise1_zero, noise1_zero]
    obtain ⟨H, v, e1, e2⟩ := C63_te_is_cmi source dest l k s hs hl hk hm hlen p hpn kn hkn i hi b hb {} lawful_none
    refine e1.trans (e2.symm.trans ?_)
    exact ksgCMI_val _ _ _ H ⟨kn, i, p⟩ hpn hi hkn hkR b hb ε hε
  exact ⟨fun hi => by simpa only [ksgCondVal_one (cfg := ⟨kn, 1, p⟩) rfl] using key 1 (.inl rfl) hi,
    fun hi => by simpa only [ksgCondVal_two (cfg := ⟨kn, 2, p⟩) rfl] using key 2 (.inr rfl) hi⟩

/-- **C82** Rényi transfer entropy without noise: the value (or exception) of `im.conditional_mutual_information` for
`I(future; source history | dest history)` with the same `k`, order and base. -/
theorem C82_te_renyi (hcl : Call W .te .renyi a kw b) {a' : PyName} {kw' : Kw} (hcl' : Call W .cmi .renyi a' kw' b)
    (hc : cond.isVal = false) (hh : History kw l k s) (hp : Plain kw') (h0 : kw "noise_level" = some (.int 0))
    (h0' : kw' "noise_level" = some (.int 0)) (hs : 0 < s) (hl : 0 < l) (hk : 0 < k) (source dest : List ℝ)
    (hm : max k l * s < source.length) (hlen : source.length = dest.length) (kn order : PyArg)
    (h1 : (kwOr kw "k" (.int 4)).toArg = some kn) (h1' : (kwOr kw' "k" (.int 4)).toArg = some kn)
    (h2 : (kwOr kw "alpha" .none).toArg = some order) (h2' : (kwOr kw' "alpha" .none).toArg = some order) :
    imTE W [.reals source, .reals dest] a cond kw =
      imCMI W [.mat ⟨1, futRows dest dest.length (max k l) s⟩, .mat ⟨l, histRows source dest.length (max k l) s l⟩] a'
        (.val (.mat ⟨k, histRows dest dest.length (max k l) s k⟩)) kw' := by
  have e := (e2e_cmi_renyi hcl'.name (data := [.mat ⟨1, futRows dest dest.length (max k l) s⟩,
      .mat ⟨l, histRows source dest.length (max k l) s l⟩]) (by simp) hcl'.accepted h1' h2' (v := 0)
      (by simp only [kwOr, h0', Option.getD_some]; exact toNoise_zero) (nm := false) (by rw [hp.normalize]; rfl) (o := some 0)
      (by rw [hp.offset]; rfl) hcl'.base (mapM_kvars [.two ⟨1, futRows dest dest.length (max k l) s⟩,
        .two ⟨l, histRows source dest.length (max k l) s l⟩]) (toKVar_ofKVar (.two ⟨k, histRows dest dest.length (max k l) s k⟩))).1
  rw [noise2_none] at e
  refine Eq.trans ?_ e.symm
  rw [e2e_te_renyi hc hcl.name hcl.accepted h1 h2 (v := 0) (by simp only [kwOr, h0, Option.getD_some]; exact toNoise_zero) hh.u hh.st
    hh.sh hh.dh hh.o hcl.base (x := source) (y := dest) rfl rfl, noise1_zero, noise1_zero]
  exact (C65_te_is_cmi renyiVal source dest l k s hs hl hk hm hlen kn order b {} lawful_none).2

/-- **C82** Tsallis transfer entropy without noise. -/
theorem C82_te_tsallis (hcl : Call W .te .tsallis a kw b) {a' : PyName} {kw' : Kw} (hcl' : Call W .cmi .tsallis a' kw' b)
    (hc : cond.isVal = false) (hh : History kw l k s) (hp : Plain kw') (h0 : kw "noise_level" = some (.int 0))
    (h0' : kw' "noise_level" = some (.int 0)) (hs : 0 < s) (hl : 0 < l) (hk : 0 < k) (source dest : List ℝ)
    (hm : max k l * s < source.length) (hlen : source.length = dest.length) (kn order : PyArg)
    (h1 : (kwOr kw "k" (.int 4)).toArg = some kn) (h1' : (kwOr kw' "k" (.int 4)).toArg = some kn)
    (h2 : (kwOr kw "q" .none).toArg = some order) (h2' : (kwOr kw' "q" .none).toArg = some order) :
    imTE W [.reals source, .reals dest] a cond kw =
      imCMI W [.mat ⟨1, futRows dest dest.length (max k l) s⟩, .mat ⟨l, histRows source dest.length (max k l) s l⟩] a'
        (.val (.mat ⟨k, histRows dest dest.length (max k l) s k⟩)) kw' := by
  have e := (e2e_cmi_tsallis hcl'.name (data := [.mat ⟨1, futRows dest dest.length (max k l) s⟩,
      .mat ⟨l, histRows source dest.length (max k l) s l⟩]) (by simp) hcl'.accepted h1' h2' (v := 0)
      (by simp only [kwOr, h0', Option.getD_some]; exact toNoise_zero) (nm := false) (by rw [hp.normalize]; rfl) (o := some 0)
      (by rw [hp.offset]; rfl) hcl'.base (mapM_kvars [.two ⟨1, futRows dest dest.length (max k l) s⟩,
        .two ⟨l, histRows source dest.length (max k l) s l⟩]) (toKVar_ofKVar (.two ⟨k, histRows dest dest.length (max k l) s k⟩))).1
  rw [noise2_none] at e
  refine Eq.trans ?_ e.symm
  rw [e2e_te_tsallis hc hcl.name hcl.accepted h1 h2 (v := 0) (by simp only [kwOr, h0, Option.getD_some]; exact toNoise_zero) hh.u hh.st
    hh.sh hh.dh hh.o hcl.base (x := source) (y := dest) rfl rfl, noise1_zero, noise1_zero]
  exact (C65_te_is_cmi tsallisVal source dest l k s hs hl hk hm hlen kn order b {} lawful_none).2

/-! ### conditional transfer entropy -/

/-- both ways to ask for a conditional transfer entropy give `r` -/
def CteIs (W : World) (source dest : PyData) (a : PyName) (z : PyData) (kw : Kw) (r : Except Exc ℝ) : Prop :=
  imCTE W [source, dest] a (.val z) kw = r ∧ imTE W [source, dest] a (.val z) kw = r

theorem condArg (hcond : kwOr kw "cond_hist_len" (.int 1) = .int c) :
    (kwOr kw "cond_hist_len" (.int 1)).toArg = some (.int c) := by rw [hcond]; rfl

/-- **C82** discrete: `I(future; source history | dest history, condition history)`. -/
theorem C82_cte (h : Call W .cte .discrete a kw b) (hb : b.Std) (hh : History kw l k s)
    (hcd : kwOr kw "cond_hist_len" (.int 1) = .int c) (hs : 0 < s) (hl : 0 < l) (hk : 0 < k) (hc : 0 < c)
    (source dest z : List Int) (hm : max (max k l) c * s < source.length) (hlen : source.length = dest.length)
    (hlen2 : z.length = dest.length) (hov : dest.length < 2 ^ 32) :
    let n := dest.length
    let m := max (max k l) c
    CteIs W (.ints source) (.ints dest) a (.ints z) kw (.ok (Spec.cmi (futRows dest n m s) (histRows source n m s l)
        ((histRows dest n m s k).zip (histRows z n m s c)) / b.ln)) := by
  intro n m
  obtain ⟨t, e, rfl, _⟩ := C24_cte_is_textbook source dest z l k c s hs hl hk hc hm hlen hlen2 hov b hb
  unfold CteIs
  rw [← e]
  exact e2e_cte_discrete h.name h.accepted hh.u hh.st hh.sh hh.dh (condArg hcd) hh.o h.base rfl rfl rfl

/-- **C82** Miller–Madow. -/
theorem C82_cte_miller_madow (h : Call W .cte .millerMadow a kw b) (hb : b.Valid) (hh : History kw l k s)
    (hcd : kwOr kw "cond_hist_len" (.int 1) = .int c) (hs : 0 < s) (hl : 0 < l) (hk : 0 < k) (hc : 0 < c)
    (source dest z : List Int) (hm : max (max k l) c * s < source.length) (hlen : source.length = dest.length)
    (hlen2 : z.length = dest.length) (hov : dest.length < 2 ^ 32) :
    let n := dest.length
    let m := max (max k l) c
    let F := futRows dest n m s
    let G := histRows source n m s l
    let DZ := (histRows dest n m s k).zip (histRows z n m s c)
    CteIs W (.ints source) (.ints dest) a (.ints z) kw
      (.ok ((millerMadow (F.zip DZ) + millerMadow (G.zip DZ) - millerMadow (F.zip (G.zip DZ)) - millerMadow DZ) / b.ln)) := by
  intro n m F G DZ
  obtain ⟨f, g, d, e, R, hR, hf, hg, hd, he, ef, eg, ed, ee, hsl, hv⟩ :=
    cte_value source dest z l k c s hs hl hk hc hm hlen hlen2 hov hb true
  have := e2e_cte_millerMadow h.name h.accepted hh.u hh.st hh.sh hh.dh (condArg hcd) hh.o h.base
    (x := source) (y := dest) (dx := .ints source) (dy := .ints dest) rfl rfl (dz := .ints z) (z := z) rfl
  rw [show ({ srcHist := .int l, destHist := .int k, step := .int s } : TEParams) = teParams l k s from rfl, hv] at this
  have c1 := hSpec_map_congr true (List.range R) (fun i => (f i, d i ++ e i)) (fun i => (f i, d i, e i))
    (fun u _ v _ => by simp only [Prod.mk.injEq]; rw [append_eq_iff (by rw [hd, hd])])
  have c2 := hSpec_map_congr true (List.range R) (fun i => (g i, d i ++ e i)) (fun i => (g i, d i, e i))
    (fun u _ v _ => by simp only [Prod.mk.injEq]; rw [append_eq_iff (by rw [hd, hd])])
  have c3 := hSpec_map_congr true (List.range R) (fun i => (f i, g i, d i ++ e i)) (fun i => (f i, g i, d i, e i))
    (fun u _ v _ => by simp only [Prod.mk.injEq]; rw [append_eq_iff (by rw [hd, hd])])
  have c4 := hSpec_map_congr true (List.range R) (fun i => d i ++ e i) (fun i => (d i, e i))
    (fun u _ v _ => by simp only [Prod.mk.injEq]; rw [append_eq_iff (by rw [hd, hd])])
  rw [c1, c2, c3, c4] at this
  simp only [hSpec, if_true] at this
  simpa only [CteIs, F, G, DZ, n, m, ← ef, ← eg, ← ed, ← ee, zip_map_map] using this

/-- **C82** the six parameter-free bias-corrected estimators. -/
theorem C82_cte_bias {f : Fam} {m : Method} (hf : FamMethod f m) (h : Call W .cte f a kw b) (hb : b.Valid)
    (hh : History kw l k s) (hcd : kwOr kw "cond_hist_len" (.int 1) = .int c) (hs : 0 < s) (hl : 0 < l) (hk : 0 < k) (hc : 0 < c)
    (source dest z : List Int) (hm : max (max k l) c * s < source.length) (hlen : source.length = dest.length)
    (hlen2 : z.length = dest.length) :
    let n := dest.length
    let M := max (max k l) c
    let F := futRows dest n M s
    let G := histRows source n M s l
    let DZ := (histRows dest n M s k).zip (histRows z n M s c)
    CteIs W (.ints source) (.ints dest) a (.ints z) kw
      (.ok ((m.value (F.zip DZ) + m.value (G.zip DZ) - m.value (F.zip (G.zip DZ)) - m.value DZ) / b.ln)) := by
  intro n M F G DZ
  have key : ∀ (cl : BiasClass) (m : Method), cl.Means m → m.Defined (F.zip (G.zip DZ)) →
      biasCTE cl source dest (some z) (teParams l k s) (.int c) (some (.int 0)) none b =
      .ok ((m.value (F.zip DZ) + m.value (G.zip DZ) - m.value (F.zip (G.zip DZ)) - m.value DZ) / b.ln) := fun cl m hcm hd =>
    (C66_cte cl m hcm source dest z l k c s hs hl hk hc hm hlen hlen2 b hb).1 hd
  unfold CteIs
  cases hf with
  | grassberger =>
    rw [← key _ _ .grassberger trivial]
    exact e2e_cte_grassberger h.name h.accepted hh.u hh.st hh.sh hh.dh (condArg hcd) hh.o h.base rfl rfl rfl
  | chaoShen =>
    rw [← key _ _ .chaoShen trivial]
    exact e2e_cte_chaoShen h.name h.accepted hh.u hh.st hh.sh hh.dh (condArg hcd) hh.o h.base rfl rfl rfl
  | chaoWangJost =>
    rw [← key _ _ .chaoWangJost trivial]
    exact e2e_cte_chaoWangJost h.name h.accepted hh.u hh.st hh.sh hh.dh (condArg hcd) hh.o h.base rfl rfl rfl
  | shrink =>
    rw [← key _ _ .shrink trivial]
    exact e2e_cte_shrink h.name h.accepted hh.u hh.st hh.sh hh.dh (condArg hcd) hh.o h.base rfl rfl rfl
  | zhang =>
    rw [← key _ _ .zhang trivial]
    exact e2e_cte_zhang h.name h.accepted hh.u hh.st hh.sh hh.dh (condArg hcd) hh.o h.base rfl rfl rfl
  | bonachela =>
    rw [← key _ _ .bonachela trivial]
    exact e2e_cte_bonachela h.name h.accepted hh.u hh.st hh.sh hh.dh (condArg hcd) hh.o h.base rfl rfl rfl

/-- **C82** the Bayesian estimator. -/
theorem C82_cte_bayes (al : AlphaArg) (K : Option PyArg) {m : Method} (hme : (BiasClass.bayes al K).Means m)
    (h : Call W .cte .bayes a kw b) (hb : b.Valid) (h1 : (kw "alpha").bind PyVal.toAlpha = some al)
    (h3 : (kwOr kw "K" .none).toOptArg = some K)
    (hh : History kw l k s) (hcd : kwOr kw "cond_hist_len" (.int 1) = .int c) (hs : 0 < s) (hl : 0 < l) (hk : 0 < k) (hc : 0 < c)
    (source dest z : List Int) (hm : max (max k l) c * s < source.length) (hlen : source.length = dest.length)
    (hlen2 : z.length = dest.length) :
    let n := dest.length
    let M := max (max k l) c
    let F := futRows dest n M s
    let G := histRows source n M s l
    let DZ := (histRows dest n M s k).zip (histRows z n M s c)
    CteIs W (.ints source) (.ints dest) a (.ints z) kw
      (.ok ((m.value (F.zip DZ) + m.value (G.zip DZ) - m.value (F.zip (G.zip DZ)) - m.value DZ) / b.ln)) := by
  intro n M F G DZ
  unfold CteIs
  rw [← (C66_cte _ m hme source dest z l k c s hs hl hk hc hm hlen hlen2 b hb).1 (by cases hme <;> trivial)]
  exact e2e_cte_bayes h.name h.accepted h1 h3 hh.u hh.st hh.sh hh.dh (condArg hcd) hh.o h.base rfl rfl rfl

/-- **C82** ANSB. -/
theorem C82_cte_ansb (h : Call W .cte .ansb a kw b) (hb : b.Valid) (u : ℝ) (hu : 0 ≤ u)
    (h1 : (kwOr kw "undersampled" (.num (1 / 10))).toNum = some u)
    (hh : History kw l k s) (hcd : kwOr kw "cond_hist_len" (.int 1) = .int c) (hs : 0 < s) (hl : 0 < l) (hk : 0 < k) (hc : 0 < c)
    (source dest z : List Int) (hm : max (max k l) c * s < source.length) (hlen : source.length = dest.length)
    (hlen2 : z.length = dest.length) :
    let n := dest.length
    let M := max (max k l) c
    let F := futRows dest n M s
    let G := histRows source n M s l
    let DZ := (histRows dest n M s k).zip (histRows z n M s c)
    (¬ (F.zip (G.zip DZ)).Nodup → CteIs W (.ints source) (.ints dest) a (.ints z) kw
      (.ok ((Method.ansb.value (F.zip DZ) + Method.ansb.value (G.zip DZ) - Method.ansb.value (F.zip (G.zip DZ)) -
        Method.ansb.value DZ) / b.ln))) ∧
    ((F.zip (G.zip DZ)).Nodup → CteIs W (.ints source) (.ints dest) a (.ints z) kw (.error .nonFinite)) := by
  intro n M F G DZ
  have e := e2e_cte_ansb h.name h.accepted h1 hh.u hh.st hh.sh hh.dh (condArg hcd) hh.o h.base
    (x := source) (y := dest) (dx := .ints source) (dy := .ints dest) rfl rfl (dz := .ints z) (z := z) rfl
  have := C66_cte _ _ (.ansb hu) source dest z l k c s hs hl hk hc hm hlen hlen2 b hb
  rw [show ({ srcHist := .int l, destHist := .int k, step := .int s } : TEParams) = teParams l k s from rfl] at e
  unfold CteIs
  exact ⟨fun hn => by rw [this.1 hn] at e; exact e, fun hn => by rw [this.2 (not_not.2 hn)] at e; exact e⟩

/-- **C82** NSB. -/
theorem C82_cte_nsb (h : Call W .cte .nsb a kw b) (hb : b.Valid) (K : Option Nat)
    (hK : kwOr kw "K" .none = (match K with | none => .none | some k => .int k)) (hK0 : ∀ k, K = some k → 0 < k)
    (hh : History kw l k s) (hcd : kwOr kw "cond_hist_len" (.int 1) = .int c) (hs : 0 < s) (hl : 0 < l) (hk : 0 < k) (hc : 0 < c)
    (source dest z : List Int) (hm : max (max k l) c * s < source.length) (hlen : source.length = dest.length)
    (hlen2 : z.length = dest.length) :
    let n := dest.length
    let M := max (max k l) c
    let F := futRows dest n M s
    let G := histRows source n M s l
    let DZ := (histRows dest n M s k).zip (histRows z n M s c)
    let ok := Nsb.Defined (F.zip DZ) K ∧ Nsb.Defined (G.zip DZ) K ∧ Nsb.Defined (F.zip (G.zip DZ)) K ∧ Nsb.Defined DZ K
    (ok → CteIs W (.ints source) (.ints dest) a (.ints z) kw (.ok ((Nsb.value (F.zip DZ) K + Nsb.value (G.zip DZ) K -
      Nsb.value (F.zip (G.zip DZ)) K - Nsb.value DZ K) / b.ln))) ∧
    (¬ ok → CteIs W (.ints source) (.ints dest) a (.ints z) kw (.error .nonFinite)) := by
  intro n M F G DZ ok
  have e := e2e_cte_nsb h.name h.accepted (K := nsbArg K) (by rw [hK]; cases K <;> rfl) hh.u hh.st hh.sh hh.dh (condArg hcd) hh.o
    h.base (x := source) (y := dest) (dx := .ints source) (dy := .ints dest) rfl rfl (dz := .ints z) (z := z) rfl
  have := C67_cte W.find K hK0 source dest z l k c s hs hl hk hc hm hlen hlen2 b hb
  rw [show ({ srcHist := .int l, destHist := .int k, step := .int s } : TEParams) = teParams l k s from rfl] at e
  unfold CteIs
  exact ⟨fun hn => by rw [this.1 hn] at e; exact e, fun hn => by rw [this.2 hn] at e; exact e⟩

/-- **C82** ordinal. -/
theorem C82_cte_ordinal (h : Call W .cte .ordinal a kw b) (hb : b.Std) (hh : History kw l k s)
    (hcd : kwOr kw "cond_hist_len" (.int 1) = .int c)
    (d : Nat) (st : Bool) (h1 : kw "embedding_dim" = some (.int d)) (h3 : kwOr kw "stable" (.bool false) = .bool st)
    (hd : 1 ≤ d) (hd' : d ≤ 20) (hs : 1 ≤ s) (hl : 0 < l) (hk : 0 < k) (hc : 0 < c) (x y z : List ℝ) (hxy : x.length = y.length)
    (hzy : z.length = y.length) (hn : (d - 1) * s + max (max k l) c * s < x.length) (hov : x.length < 2 ^ 32)
    (htx : TieFree x d s) (hty : TieFree y d s) (htz : TieFree z d s) :
    let N := x.length - (d - 1) * s
    let m := max (max k l) c
    CteIs W (.reals x) (.reals y) a (.reals z) kw
      (.ok (Spec.cmi (futRows (ordPatterns y d s) N m s) (histRows (ordPatterns x d s) N m s l)
        ((histRows (ordPatterns y d s) N m s k).zip (histRows (ordPatterns z d s) N m s c)) / b.ln)) := by
  intro N m
  obtain ⟨t, e, rfl, _⟩ := C57_ordinal_cte_is_textbook W.quick x y z hxy hzy d s l k c hd hd' hs hl hk hc hn hov st htx hty htz b hb
  unfold CteIs
  rw [← e]
  exact e2e_cte_ordinal h.name h.accepted (d := .int d) (by rw [h1]; rfl) (st := st) (by rw [h3]; rfl) hh.u hh.st hh.sh hh.dh
    (condArg hcd) hh.o h.base rfl rfl rfl

/-- **C82** box kernel. -/
theorem C82_cte_box (hcl : Call W .cte .kernel a kw b) (hb : b.Valid) (hh : History kw l k s)
    (hcd : kwOr kw "cond_hist_len" (.int 1) = .int c) (hs : 0 < s) (hl : 0 < l) (hk : 0 < k) (hc : 0 < c)
    (source dest z : List ℝ) (hm : max (max k l) c * s < source.length) (hlen : source.length = dest.length)
    (hlen2 : z.length = dest.length)
    (hR : 2 ≤ numRows dest.length (max (max k l) c) s) (h : ℝ) (hpos : 0 < h) (w : Int) (h1 : kwOr kw "bandwidth" .none = .num h)
    (h2 : kwOr kw "kernel" .none = .str "box") (h3 : kwOr kw "workers" (.int 1) = .int w) :
    let m := max (max k l) c
    let R := numRows dest.length m s
    CteIs W (.reals source) (.reals dest) a (.reals z) kw
      (.ok (boxCMI R h (futRows dest dest.length m s) (histRows source dest.length m s l)
        ((List.range R).map (fun i => histRow dest m s k i ++ histRow z m s c i)) / b.ln)) := by
  intro m R
  unfold CteIs
  rw [← C61_cte_value source dest z l k c s hs hl hk hc hm hlen hlen2 hR h hpos (resolveWorkers W.cpu w) b hb]
  exact e2e_cte_kernel hcl.name hcl.accepted (h := .num h) (by rw [h1]; rfl) (kn := .box)
    (by rw [h2]; simp [PyVal.toKernel]) (w := w) (by rw [h3]; rfl) hh.u hh.st hh.sh hh.dh (condArg hcd) hh.o hcl.base rfl rfl rfl

/-- **C82** Gaussian kernel. -/
theorem C82_cte_gaussian (hcl : Call W .cte .kernel a kw b) (hb : b.Valid) (he : EigOK W.eig) (hh : History kw l k s)
    (hcd : kwOr kw "cond_hist_len" (.int 1) = .int c) (hs : 0 < s) (hl : 0 < l) (hk : 0 < k) (hc : 0 < c)
    (source dest z : List ℝ) (hm : max (max k l) c * s < source.length) (hlen : source.length = dest.length)
    (hlen2 : z.length = dest.length)
    (hR : 2 ≤ numRows dest.length (max (max k l) c) s) (h : ℝ) (hpos : 0 < h) (h1 : kwOr kw "bandwidth" .none = .num h)
    (h2 : kwOr kw "kernel" .none = .str "gaussian") (h3 : kwOr kw "workers" (.int 1) = .int 1) :
    let M := max (max k l) c
    let R := numRows dest.length M s
    let f := fun i => dest.getD ((M + i) * s) 0
    let g := histRow source M s l
    let d := histRow dest M s k
    let e := histRow z M s c
    Spread (columns R (l + k + 1 + c) (fun i => g i ++ d i ++ [f i] ++ e i)) →
    CteIs W (.reals source) (.reals dest) a (.reals z) kw (.ok (gaussTE R l k c f g d e h / b.ln)) := by
  intro M R f g d e hsp
  unfold CteIs
  rw [← C71_cte_value W.eig he source dest z l k c s hs hl hk hc hm hlen hlen2 hR h hpos (resolveWorkers W.cpu 1)
    (by simp [resolveWorkers]) b hb hsp]
  exact e2e_cte_kernel hcl.name hcl.accepted (h := .num h) (by rw [h1]; rfl) (kn := gaussian W.eig)
    (by rw [h2]; simp [PyVal.toKernel]) (w := 1) (by rw [h3]; rfl) hh.u hh.st hh.sh hh.dh (condArg hcd) hh.o hcl.base rfl rfl rfl

/-- **C82** KSG (Frenzel–Pompe) conditional transfer entropy, without noise. -/
theorem C82_cte_metric (hcl : Call W .cte .metric a kw b) (hb : b.Valid) (hh : History kw l k s)
    (hcd : kwOr kw "cond_hist_len" (.int 1) = .int c) (h0 : kw "noise_level" = some (.int 0)) (hs : 0 < s)
    (hl : 0 < l) (hk : 0 < k) (hc : 0 < c) (source dest z : List ℝ) (hm : max (max k l) c * s < source.length)
    (hlen : source.length = dest.length) (hlen2 : z.length = dest.length)
    (p : PNorm) (hpn : p.ok = true) (kn : Nat) (hkn : 0 < kn) (hkR : kn < numRows dest.length (max (max k l) c) s)
    (h1 : kwOr kw "k" (.int 4) = .int kn) (h2 : (kwOr kw "minkowski_p" .inf).toPNorm = some p) :
    let m := max (max k l) c
    let R := numRows dest.length m s
    let F := KVar.two ⟨1, futRows dest dest.length m s⟩
    let G := KVar.two ⟨l, histRows source dest.length m s l⟩
    let DZ := KVar.two ⟨k + c, (List.range R).map (fun i => histRow dest m s k i ++ histRow z m s c i)⟩
    ∀ (ε : Nat → ℝ) (_ : ∀ t < R, IsKthDist R kn t (jointDists p.order [F.samples, G.samples, DZ.samples] t) (ε t)),
    (kwOr kw "ksg_id" (.int 1) = .int 1 → CteIs W (.reals source) (.reals dest) a (.reals z) kw
      (.ok (mean ((List.range R).map (fun t => ksgCondI p.order R kn [F.samples, G.samples] DZ.samples t (ε t))) / b.ln))) ∧
    (kwOr kw "ksg_id" (.int 1) = .int 2 → CteIs W (.reals source) (.reals dest) a (.reals z) kw
      (.ok (mean ((List.range R).map (fun t => ksgCondII p.order R kn [F.samples, G.samples] DZ.samples t (ε t))) / b.ln))) := by
  intro m R F G DZ ε hε
  have key : ∀ i : Int, i = 1 ∨ i = 2 → kwOr kw "ksg_id" (.int 1) = .int i → CteIs W (.reals source) (.reals dest) a (.reals z) kw
      (.ok (mean ((List.range R).map (fun t => ksgCondVal ⟨kn, i, p⟩ R [F.samples, G.samples] DZ.samples t (ε t))) / b.ln)) := by
    intro i hi hid
    have e := e2e_cte_metric hcl.name hcl.accepted (k := kn) (by rw [h1]; simp [PyVal.toNat]) (i := i)
      (by rw [hid]; rfl) (v := 0) (by simp only [kwOr, h0, Option.getD_some]; exact toNoise_zero) (mp := p) h2 hh.u hh.st hh.sh hh.dh
      (condArg hcd) hh.o hcl.base (x := source) (y := dest) (dx := .reals source) (dy := .reals dest) rfl rfl (dz := .reals z)
      (z := z) rfl
    rw [noise1_zero, noise1_zero, noise1_zero] at e
    obtain ⟨H, v, e1, e2⟩ := C63_cte_is_cmi source dest z l k c s hs hl hk hc hm hlen hlen2 p hpn kn hkn i hi b hb
    have e3 := ksgCMI_val _ _ _ H ⟨kn, i, p⟩ hpn hi hkn hkR b hb ε hε
    rw [show ({ srcHist := .int l, destHist := .int k, step := .int s } : TEParams) = teParams l k s from rfl, e1, ← e2, e3] at e
    exact e
  exact ⟨fun hi => by simpa only [ksgCondVal_one (cfg := ⟨kn, 1, p⟩) rfl] using key 1 (.inl rfl) hi,
    fun hi => by simpa only [ksgCondVal_two (cfg := ⟨kn, 2, p⟩) rfl] using key 2 (.inr rfl) hi⟩

/-- **C82** Rényi conditional transfer entropy without noise: the value (or exception) of `im.conditional_mutual_information` for
`I(future; source history | dest history, condition history)` with the same `k`, order and base. -/
theorem C82_cte_renyi (hcl : Call W .cte .renyi a kw b) {a' : PyName} {kw' : Kw} (hcl' : Call W .cmi .renyi a' kw' b)
    (hh : History kw l k s) (hcd : kwOr kw "cond_hist_len" (.int 1) = .int c) (hp : Plain kw')
    (h0 : kw "noise_level" = some (.int 0)) (h0' : kw' "noise_level" = some (.int 0)) (hs : 0 < s) (hl : 0 < l) (hk : 0 < k)
    (hc : 0 < c) (source dest z : List ℝ) (hm : max (max k l) c * s < source.length) (hlen : source.length = dest.length)
    (hlen2 : z.length = dest.length) (kn order : PyArg)
    (h1 : (kwOr kw "k" (.int 4)).toArg = some kn) (h1' : (kwOr kw' "k" (.int 4)).toArg = some kn)
    (h2 : (kwOr kw "alpha" .none).toArg = some order) (h2' : (kwOr kw' "alpha" .none).toArg = some order) :
    let m := max (max k l) c
    let R := numRows dest.length m s
    CteIs W (.reals source) (.reals dest) a (.reals z) kw
      (imCMI W [.mat ⟨1, futRows dest dest.length m s⟩, .mat ⟨l, histRows source dest.length m s l⟩] a'
        (.val (.mat ⟨k + c, (List.range R).map (fun i => histRow dest m s k i ++ histRow z m s c i)⟩)) kw') := by
  intro m R
  have e := (e2e_cmi_renyi hcl'.name (data := [.mat ⟨1, futRows dest dest.length m s⟩,
      .mat ⟨l, histRows source dest.length m s l⟩]) (by simp) hcl'.accepted h1' h2' (v := 0)
      (by simp only [kwOr, h0', Option.getD_some]; exact toNoise_zero) (nm := false) (by rw [hp.normalize]; rfl) (o := some 0)
      (by rw [hp.offset]; rfl) hcl'.base (mapM_kvars [.two ⟨1, futRows dest dest.length m s⟩,
        .two ⟨l, histRows source dest.length m s l⟩]) (toKVar_ofKVar (.two ⟨k + c, (List.range R).map (fun i =>
          histRow dest m s k i ++ histRow z m s c i)⟩))).1
  rw [noise2_none] at e
  have e' := e2e_cte_renyi hcl.name hcl.accepted h1 h2 (v := 0) (by simp only [kwOr, h0, Option.getD_some]; exact toNoise_zero)
    hh.u hh.st hh.sh hh.dh (condArg hcd) hh.o hcl.base (x := source) (y := dest) (dx := .reals source) (dy := .reals dest) rfl rfl
    (dz := .reals z) (z := z) rfl
  rw [noise1_zero, noise1_zero, noise1_zero] at e'
  have e'' := (C65_cte_is_cmi renyiVal source dest z l k c s hs hl hk hc hm hlen hlen2 kn order b).2
  rw [show ({ srcHist := .int l, destHist := .int k, step := .int s } : TEParams) = teParams l k s from rfl, e''] at e'
  unfold CteIs
  exact ⟨e'.1.trans e.symm, e'.2.trans e.symm⟩

/-- **C82** Tsallis conditional transfer entropy without noise: the value (or exception) of `im.conditional_mutual_information` for
`I(future; source history | dest history, condition history)` with the same `k`, order and base. -/
theorem C82_cte_tsallis (hcl : Call W .cte .tsallis a kw b) {a' : PyName} {kw' : Kw} (hcl' : Call W .cmi .tsallis a' kw' b)
    (hh : History kw l k s) (hcd : kwOr kw "cond_hist_len" (.int 1) = .int c) (hp : Plain kw')
    (h0 : kw "noise_level" = some (.int 0)) (h0' : kw' "noise_level" = some (.int 0)) (hs : 0 < s) (hl : 0 < l) (hk : 0 < k)
    (hc : 0 < c) (source dest z : List ℝ) (hm : max (max k l) c * s < source.length) (hlen : source.length = dest.length)
    (hlen2 : z.length = dest.length) (kn order : PyArg)
    (h1 : (kwOr kw "k" (.int 4)).toArg = some kn) (h1' : (kwOr kw' "k" (.int 4)).toArg = some kn)
    (h2 : (kwOr kw "q" .none).toArg = some order) (h2' : (kwOr kw' "q" .none).toArg = some order) :
    let m := max (max k l) c
    let R := numRows dest.length m s
    CteIs W (.reals source) (.reals dest) a (.reals z) kw
      (imCMI W [.mat ⟨1, futRows dest dest.length m s⟩, .mat ⟨l, histRows source dest.length m s l⟩] a'
        (.val (.mat ⟨k + c, (List.range R).map (fun i => histRow dest m s k i ++ histRow z m s c i)⟩)) kw') := by
  intro m R
  have e := (e2e_cmi_tsallis hcl'.name (data := [.mat ⟨1, futRows dest dest.length m s⟩,
      .mat ⟨l, histRows source dest.length m s l⟩]) (by simp) hcl'.accepted h1' h2' (v := 0)
      (by simp only [kwOr, h0', Option.getD_some]; exact toNoise_zero) (nm := false) (by rw [hp.normalize]; rfl) (o := some 0)
      (by rw [hp.offset]; rfl) hcl'.base (mapM_kvars [.two ⟨1, futRows dest dest.length m s⟩,
        .two ⟨l, histRows source dest.length m s l⟩]) (toKVar_ofKVar (.two ⟨k + c, (List.range R).map (fun i =>
          histRow dest m s k i ++ histRow z m s c i)⟩))).1
  rw [noise2_none] at e
  have e' := e2e_cte_tsallis hcl.name hcl.accepted h1 h2 (v := 0) (by simp only [kwOr, h0, Option.getD_some]; exact toNoise_zero)
    hh.u hh.st hh.sh hh.dh (condArg hcd) hh.o hcl.base (x := source) (y := dest) (dx := .reals source) (dy := .reals dest) rfl rfl
    (dz := .reals z) (z := z) rfl
  rw [noise1_zero, noise1_zero, noise1_zero] at e'
  have e'' := (C65_cte_is_cmi tsallisVal source dest z l k c s hs hl hk hc hm hlen hlen2 kn order b).2
  rw [show ({ srcHist := .int l, destHist := .int k, step := .int s } : TEParams) = teParams l k s from rfl, e''] at e'
  unfold CteIs
  exact ⟨e'.1.trans e.symm, e'.2.trans e.symm⟩

end Verif
