import Verif.Props.ExpMI2
import Verif.Props.KsgTE2

/-!
# C65 continued: transfer entropy and conditional transfer entropy

`expTE renyiVal source dest (teParams l k s) (some (.int 0)) none kn order none none b` is `transfer_entropy(source, dest,
approach="renyi", src_hist_len=l, dest_hist_len=k, step_size=s, k=kn, alpha=order, noise_level=0, base=b)`.
-/

namespace Verif

open Spec

theorem rows_sample {R c : Nat} (hc : 0 < c) {h : Nat → List ℝ} (hh : ∀ i, (h i).length = c) :
    (KVar.two ⟨c, (List.range R).map h⟩).Sample R :=
  ⟨by simp [KVar.len], points_range hh, hc⟩

/-- the four entropies of the embedded rows are those of the conditional mutual information -/
theorem entropyTE_is_cmi {R q l k c : Nat} (hR : 0 < R) (hq : 0 < q) (hl : 0 < l) (hk : 0 < k) {f g d z : Nat → List ℝ} (hf : ∀ i, (f i).length = q)
    (hg : ∀ i, (g i).length = l) (hd : ∀ i, (d i).length = k) (hz : ∀ i, (z i).length = c) (val : ExpVal) (kn order : PyArg) (b : Base) :
    entropyTE (fun a => expEntropy val a kn order b)
      { joint := (List.range R).map (fun i => g i ++ d i ++ f i ++ z i)
        destPast := (List.range R).map (fun i => d i ++ z i)
        marginal1 := (List.range R).map (fun i => g i ++ d i ++ z i)
        marginal2 := (List.range R).map (fun i => d i ++ f i ++ z i) } =
    entropyCMI (fun a => expEntropy val a kn order b)
      [.two ⟨q, (List.range R).map f⟩, .two ⟨l, (List.range R).map g⟩] (.two ⟨k + c, (List.range R).map (fun i => d i ++ z i)⟩) := by
  have sF : (KVar.two ⟨q, (List.range R).map f⟩).Sample R := rows_sample hq hf
  have sG : (KVar.two ⟨l, (List.range R).map g⟩).Sample R := rows_sample hl hg
  have sZ : (KVar.two ⟨k + c, (List.range R).map (fun i => d i ++ z i)⟩).Sample R :=
    rows_sample (by omega) (by intro i; simp [hd, hz])
  have e2 : expEntropy val [.arr (.two (Arr.ofRows ((List.range R).map (fun i => d i ++ f i ++ z i))))] kn order b =
      expEntropy val [.tup [.two ⟨q, (List.range R).map f⟩, .two ⟨k + c, (List.range R).map (fun i => d i ++ z i)⟩]] kn order b := by
    have hs : ∀ v ∈ [KVar.two ⟨q, (List.range R).map f⟩, .two ⟨k + c, (List.range R).map (fun i => d i ++ z i)⟩], v.Sample R := by
      intro v hv
      simp only [List.mem_cons, List.not_mem_nil, or_false] at hv
      rcases hv with rfl | rfl
      exacts [sF, sZ]
    rw [expEntropy_joint (by simp) hs, ofRows_range hR (c := k + q + c) (by intro i; simp [hd, hf, hz]; omega)]
    refine expEntropy_congr (rows_sample (by omega) (by intro i; simp [hd, hf, hz]; omega)) (sideBySide_sample (by simp) hs).1 ?_ ?_ val _ _ b
    · rw [(sideBySide_sample (by simp) hs).2]; simp [KVar.dim, assure2d]; try omega
    · intro t ht s hs'
      rw [sideBySide_dists ht hs']
      exact te_dists_marginal2 (p := .num 2) hf hd hz ht hs'
  have e1 : expEntropy val [.arr (.two (Arr.ofRows ((List.range R).map (fun i => g i ++ d i ++ z i))))] kn order b =
      expEntropy val [.tup [.two ⟨l, (List.range R).map g⟩, .two ⟨k + c, (List.range R).map (fun i => d i ++ z i)⟩]] kn order b := by
    have hs : ∀ v ∈ [KVar.two ⟨l, (List.range R).map g⟩, .two ⟨k + c, (List.range R).map (fun i => d i ++ z i)⟩], v.Sample R := by
      intro v hv
      simp only [List.mem_cons, List.not_mem_nil, or_false] at hv
      rcases hv with rfl | rfl
      exacts [sG, sZ]
    rw [expEntropy_joint (by simp) hs, ofRows_range hR (c := l + k + c) (by intro i; simp [hd, hg, hz, add_assoc])]
    refine expEntropy_congr (rows_sample (by omega) (by intro i; simp [hd, hg, hz, add_assoc])) (sideBySide_sample (by simp) hs).1 ?_ ?_ val _ _ b
    · rw [(sideBySide_sample (by simp) hs).2]; simp [KVar.dim, assure2d]; try omega
    · intro t ht s hs'
      rw [sideBySide_dists ht hs']
      exact te_dists_marginal1 (p := .num 2) ht hs'
  have ej : expEntropy val [.arr (.two (Arr.ofRows ((List.range R).map (fun i => g i ++ d i ++ f i ++ z i))))] kn order b =
      expEntropy val [.tup [.two ⟨q, (List.range R).map f⟩, .two ⟨l, (List.range R).map g⟩,
        .two ⟨k + c, (List.range R).map (fun i => d i ++ z i)⟩]] kn order b := by
    have hs : ∀ v ∈ [KVar.two ⟨q, (List.range R).map f⟩, .two ⟨l, (List.range R).map g⟩,
        .two ⟨k + c, (List.range R).map (fun i => d i ++ z i)⟩], v.Sample R := by
      intro v hv
      simp only [List.mem_cons, List.not_mem_nil, or_false] at hv
      rcases hv with rfl | rfl | rfl
      exacts [sF, sG, sZ]
    rw [expEntropy_joint (by simp) hs, ofRows_range hR (c := l + k + q + c) (by intro i; simp [hd, hg, hz, hf]; omega)]
    refine expEntropy_congr (rows_sample (by omega) (by intro i; simp [hd, hg, hf, hz]; omega)) (sideBySide_sample (by simp) hs).1 ?_ ?_ val _ _ b
    · rw [(sideBySide_sample (by simp) hs).2]; simp [KVar.dim, assure2d]; try omega
    · intro t ht s hs'
      rw [sideBySide_dists ht hs']
      exact te_dists_joint (p := .num 2) hf hg hd hz ht hs'
  have ez : Arr.ofRows ((List.range R).map (fun i => d i ++ z i)) = ⟨k + c, (List.range R).map (fun i => d i ++ z i)⟩ :=
    ofRows_range hR (by intro i; simp [hd, hz])
  simp only [entropyTE, entropyCMI, e1, e2, ej, ez, List.mapM_cons, List.mapM_nil, List.cons_append, List.nil_append]
  simp only [bind, Except.bind, pure, Except.pure]
  generalize expEntropy val [.tup [.two ⟨q, (List.range R).map f⟩, .two ⟨k + c, (List.range R).map (fun i => d i ++ z i)⟩]] kn order b = a1
  generalize expEntropy val [.tup [.two ⟨l, (List.range R).map g⟩, .two ⟨k + c, (List.range R).map (fun i => d i ++ z i)⟩]] kn order b = a2
  rcases a1 with _ | x1
  · rfl
  rcases a2 with _ | x2
  · rfl
  simp

/-- **C65** Transfer entropy is the conditional mutual information estimate of the embedded samples: the future of the destination and
the history of the source given the history of the destination. Whatever the parameters, both give the same value or the same
error. -/
theorem C65_te_is_cmi (val : ExpVal) (source dest : List ℝ) (l k s : Nat) (hs : 0 < s) (hl : 0 < l) (hk : 0 < k)
    (hm : max k l * s < source.length) (hlen : source.length = dest.length) (kn order : PyArg) (b : Base) (rnd : SrcRandom)
    (hr : rnd.Lawful) :
    let R := numRows dest.length (max k l) s
    let F := futRows dest dest.length (max k l) s
    let G := (srcSel rnd R).map (histRow source (max k l) s l)
    let D := histRows dest dest.length (max k l) s k
    CMISamples [.two ⟨1, F⟩, .two ⟨l, G⟩] (.two ⟨k, D⟩) R ∧
    expTE val source dest (teParams l k s) (some (.int 0)) none kn order none none b rnd =
      expCMI val [.two ⟨1, F⟩, .two ⟨l, G⟩] (some (.two ⟨k, D⟩)) (some 0) false kn order noNoise none b := by
  intro R F G D
  have hR0 : 0 < R := numRows_pos hs (by omega)
  have hG : G = (List.range R).map (fun i => histRow source (max k l) s l ((srcSel rnd R).getD i 0)) := srcRows_eq _ _ _ _ _ hr
  have H : CMISamples [.two ⟨1, F⟩, .two ⟨l, G⟩] (.two ⟨k, D⟩) R := by
    refine ⟨⟨by simp, hR0, ?_⟩, rows_sample hk (by simp [histRow])⟩
    intro v hv
    simp only [List.mem_cons, List.not_mem_nil, or_false] at hv
    rcases hv with rfl | rfl
    · exact rows_sample one_pos (by simp)
    · rw [hG]; exact rows_sample hl (by simp [histRow])
  refine ⟨H, ?_⟩
  rw [expCMI_eq H val kn order b (.inl rfl)]
  have key := entropyTE_is_cmi (R := R) (q := 1) (l := l) (k := k) (c := 0) hR0 one_pos hl hk
    (f := fun i : Nat => [dest.getD ((max k l + i) * s) default])
    (g := fun i => histRow source (max k l) s l ((srcSel rnd R).getD i 0)) (d := histRow dest (max k l) s k)
    (z := fun _ => []) (by simp) (by simp [histRow]) (by simp [histRow]) (by simp) val kn order b
  simp only [List.append_nil, Nat.add_zero] at key
  have hz : ∀ e, expParams kn order = .error e → (.error e : Except Exc ℝ) = entropyCMI (fun a => expEntropy val a kn order b)
      [.two ⟨1, F⟩, .two ⟨l, G⟩] (.two ⟨k, D⟩) := by
    intro e he
    have : order.posNumber = none ∨ kn.posInt = false := by
      unfold expParams at he
      cases ho : order.posNumber with
      | none => exact .inl rfl
      | some q => cases hk : kn.posInt with
        | false => exact .inr rfl
        | true => simp [ho, hk] at he
    have h2 := expParams_error this
    rw [h2] at he
    cases he
    simp only [entropyCMI, List.mapM_cons, expInit_other this, bind, Except.bind]
  cases hp : expParams kn order with
  | error e =>
    simp only [expTE, teInit_zero hlen, bind, Except.bind, hp]
    exact hz e hp
  | ok u =>
    have ho := teObservations_ok source dest l k s hs hl hk hm hlen hr
    rw [srcRows_eq _ _ _ _ _ hr, histRows, futRows] at ho
    simp only [expTE, teInit_zero hlen, bind, Except.bind, hp, teParams, expStepCheck, Int.natCast_nonneg, if_true, jitter1, ho, teSpaces_ok]
    rw [hG]
    exact key

example := C65_te_is_cmi renyiVal [0, 1, 3, 2, 5] [1, 0, 4, 2, 3] 1 2 1 (by decide) (by decide) (by decide) (by simp) rfl (.int 1) (.num 2)
  .e {} lawful_none

/-- Transfer entropy of order `q < k + 1` with `k` less than the number of embedded rows always exists. -/
theorem C65_te_finite (val : ExpVal) (hval : val = renyiVal ∨ val = tsallisVal) (source dest : List ℝ) (l k s : Nat) (hs : 0 < s)
    (hl : 0 < l) (hk : 0 < k) (hm : max k l * s < source.length) (hlen : source.length = dest.length) (kn : Nat) (hkn : 0 < kn)
    (hR : kn < numRows dest.length (max k l) s) (order : PyArg) (q : ℝ) (ho : order.posNumber = some q)
    (hq : q < kn + 1) (b : Base) (hb : b.Valid) (rnd : SrcRandom) (hr : rnd.Lawful) :
    ∃ v, expTE val source dest (teParams l k s) (some (.int 0)) none (.int kn) order none none b rnd = .ok v := by
  obtain ⟨H, h⟩ := C65_te_is_cmi val source dest l k s hs hl hk hm hlen (.int kn) order b rnd hr
  rw [h]
  exact C65_cmi_finite val hval _ _ _ H kn hkn hR order q ho hq b hb

/-- **C65** Conditional transfer entropy is the conditional mutual information estimate of the embedded samples with the condition's
history appended to the destination's. -/
theorem C65_cte_is_cmi (val : ExpVal) (source dest cond : List ℝ) (l k c s : Nat) (hs : 0 < s) (hl : 0 < l) (hk : 0 < k) (hc : 0 < c)
    (hm : max (max k l) c * s < source.length) (hlen : source.length = dest.length) (hlen2 : cond.length = dest.length)
    (kn order : PyArg) (b : Base) :
    let m := max (max k l) c
    let R := numRows dest.length m s
    let F := futRows dest dest.length m s
    let G := histRows source dest.length m s l
    let DZ := (List.range R).map (fun i => histRow dest m s k i ++ histRow cond m s c i)
    CMISamples [.two ⟨1, F⟩, .two ⟨l, G⟩] (.two ⟨k + c, DZ⟩) R ∧
    expCTE val source dest (some cond) (teParams l k s) (.int c) (some (.int 0)) none kn order none none none b =
      expCMI val [.two ⟨1, F⟩, .two ⟨l, G⟩] (some (.two ⟨k + c, DZ⟩)) (some 0) false kn order noNoise none b := by
  intro m R F G DZ
  have hR0 : 0 < R := numRows_pos hs (by rw [← hlen]; exact hm)
  have H : CMISamples [.two ⟨1, F⟩, .two ⟨l, G⟩] (.two ⟨k + c, DZ⟩) R := by
    refine ⟨⟨by simp, hR0, ?_⟩, rows_sample (by omega) (by simp [histRow])⟩
    intro v hv
    simp only [List.mem_cons, List.not_mem_nil, or_false] at hv
    rcases hv with rfl | rfl
    · exact rows_sample one_pos (by simp)
    · exact rows_sample hl (by simp [histRow])
  refine ⟨H, ?_⟩
  rw [expCMI_eq H val kn order b (.inl rfl)]
  have key := entropyTE_is_cmi (R := R) (q := 1) (l := l) (k := k) (c := c) hR0 one_pos hl hk
    (f := fun i : Nat => [dest.getD ((max (max k l) c + i) * s) default])
    (g := histRow source (max (max k l) c) s l) (d := histRow dest (max (max k l) c) s k)
    (z := histRow cond (max (max k l) c) s c) (by simp) (by simp [histRow]) (by simp [histRow]) (by simp [histRow]) val kn order b
  cases hp : expParams kn order with
  | error e =>
    have : order.posNumber = none ∨ kn.posInt = false := by
      unfold expParams at hp
      cases ho : order.posNumber with
      | none => exact .inl rfl
      | some q => cases hk : kn.posInt with
        | false => exact .inr rfl
        | true => simp [ho, hk] at hp
    simp only [expCTE, cteInit_zero hlen hlen2, bind, Except.bind, hp]
    rw [expParams_error this] at hp
    cases hp
    simp only [entropyCMI, List.mapM_cons, expInit_other this, bind, Except.bind]
  | ok u =>
    have ho := cteObservations_ok source dest cond l k c s hs hl hk hc hm hlen hlen2 lawful_none
    rw [srcSel_none, histRows, futRows, histRows] at ho
    simp only [expCTE, cteInit_zero hlen hlen2, bind, Except.bind, hp, teParams, expStepCheck, Int.natCast_nonneg, if_true, jitter1, ho,
      cteSpaces_ok]
    exact key

example := C65_cte_is_cmi renyiVal [0, 1, 3, 2, 5] [1, 0, 4, 2, 3] [3, 1, 0, 0, 2] 1 2 1 1 (by decide) (by decide) (by decide) (by decide)
  (by simp) rfl rfl (.int 1) (.num 2) .e

theorem C65_cte_finite (val : ExpVal) (hval : val = renyiVal ∨ val = tsallisVal) (source dest cond : List ℝ) (l k c s : Nat) (hs : 0 < s)
    (hl : 0 < l) (hk : 0 < k) (hc : 0 < c) (hm : max (max k l) c * s < source.length) (hlen : source.length = dest.length)
    (hlen2 : cond.length = dest.length) (kn : Nat) (hkn : 0 < kn) (hR : kn < numRows dest.length (max (max k l) c) s) (order : PyArg)
    (q : ℝ) (ho : order.posNumber = some q) (hq : q < kn + 1) (b : Base) (hb : b.Valid) :
    ∃ v, expCTE val source dest (some cond) (teParams l k s) (.int c) (some (.int 0)) none (.int kn) order none none none b = .ok v := by
  obtain ⟨H, h⟩ := C65_cte_is_cmi val source dest cond l k c s hs hl hk hc hm hlen hlen2 (.int kn) order b
  rw [h]
  exact C65_cmi_finite val hval _ _ _ H kn hkn hR order q ho hq b hb

example := C65_cte_finite renyiVal (.inl rfl) [0, 1, 3, 2, 5] [1, 0, 4, 2, 3] [3, 1, 0, 0, 2] 1 2 1 1 (by decide) (by decide) (by decide)
  (by decide) (by simp) rfl rfl 1 (by decide) (by simp [numRows]) (.num (3 / 2)) (3 / 2) (by simp [PyArg.posNumber]) (by norm_num) .e trivial

/-- Errors: different lengths, an order or `k` that is not positive, parameters that are not positive, and series too short for the
embedding are ValueErrors, for all settings of the noise. -/
theorem C65_te_errors (val : ExpVal) (source dest : List ℝ) (l k s : Int) (kn order : PyArg) (nx ny : Option (Nat → ℝ)) (b : Base)
    (rnd : SrcRandom) :
    (source.length ≠ dest.length →
      expTE val source dest ⟨.int l, .int k, .int s⟩ (some (.int 0)) none kn order nx ny b rnd = .error .valueError) ∧
    (order.posNumber = none ∨ kn.posInt = false →
      expTE val source dest ⟨.int l, .int k, .int s⟩ (some (.int 0)) none kn order nx ny b rnd = .error .valueError) ∧
    (l ≤ 0 ∨ k ≤ 0 ∨ s ≤ 0 →
      expTE val source dest ⟨.int l, .int k, .int s⟩ (some (.int 0)) none kn order nx ny b rnd = .error .valueError) ∧
    ((source.length : Int) ≤ max k l * s →
      expTE val source dest ⟨.int l, .int k, .int s⟩ (some (.int 0)) none kn order nx ny b rnd = .error .valueError) := by
  have hj : ∀ (e : Option (Nat → ℝ)) (xs : List ℝ), (jitter1 e xs).length = xs.length := by
    intro e xs; cases e <;> simp [jitter1]
  have h0 : source.length ≠ dest.length →
      expTE val source dest ⟨.int l, .int k, .int s⟩ (some (.int 0)) none kn order nx ny b rnd = .error .valueError := by
    intro h
    simp [expTE, teInit, h, bind, Except.bind]
  have h1 : order.posNumber = none ∨ kn.posInt = false →
      expTE val source dest ⟨.int l, .int k, .int s⟩ (some (.int 0)) none kn order nx ny b rnd = .error .valueError := by
    intro h
    by_cases hlen : source.length = dest.length
    · simp only [expTE, teInit_zero hlen, bind, Except.bind, expParams_error h]
    · exact h0 hlen
  have h2 : ∀ (h : [PyArg.int l, PyArg.int k, PyArg.int s].all PyArg.posInt = false),
      expTE val source dest ⟨.int l, .int k, .int s⟩ (some (.int 0)) none kn order nx ny b rnd = .error .valueError := by
    intro h
    by_cases hlen : source.length = dest.length
    · by_cases hp : order.posNumber = none ∨ kn.posInt = false
      · exact h1 hp
      · obtain ⟨q, hq⟩ := Option.ne_none_iff_exists'.1 (not_or.1 hp).1
        have hk : kn.posInt = true := by simpa using (not_or.1 hp).2
        simp only [expTE, teInit_zero hlen, bind, Except.bind, expParams_ok hk hq, expStepCheck]
        split_ifs
        · simp only [teObservations, h, if_true]
        · rfl
    · exact h0 hlen
  refine ⟨h0, h1, ?_, ?_⟩
  · intro h
    exact h2 (by simp [PyArg.posInt]; omega)
  · intro h
    by_cases hp : [PyArg.int l, PyArg.int k, PyArg.int s].all PyArg.posInt = false
    · exact h2 hp
    by_cases hlen : source.length = dest.length
    · by_cases hp' : order.posNumber = none ∨ kn.posInt = false
      · exact h1 hp'
      · obtain ⟨q, hq⟩ := Option.ne_none_iff_exists'.1 (not_or.1 hp').1
        have hk : kn.posInt = true := by simpa using (not_or.1 hp').2
        simp only [expTE, teInit_zero hlen, bind, Except.bind, expParams_ok hk hq, expStepCheck]
        split_ifs
        · simp only [teObservations, hp, PyArg.val, hj, h, if_true]
          simp
        · rfl
    · exact h0 hlen

example := And.intro ((C65_te_errors renyiVal [0, 1, 3] [1, 0] 1 1 1 (.int 1) (.num 2) none none .e {}).1 (by simp))
  ((C65_te_errors renyiVal [0, 1, 3] [1, 0, 2] 3 1 1 (.int 1) (.num 2) none none .e {}).2.2.2 (by simp))

/-- A conditional transfer entropy without condition, with series of different lengths, with a bad order or `k`, or with parameters
that are not positive is a ValueError. -/
theorem C65_cte_errors (val : ExpVal) (source dest cond : List ℝ) (l k c s : Int) (kn order : PyArg) (nx ny nz : Option (Nat → ℝ)) (b : Base) :
    expCTE val source dest none ⟨.int l, .int k, .int s⟩ (.int c) (some (.int 0)) none kn order nx ny nz b = .error .valueError ∧
    (source.length ≠ dest.length ∨ source.length ≠ cond.length →
      expCTE val source dest (some cond) ⟨.int l, .int k, .int s⟩ (.int c) (some (.int 0)) none kn order nx ny nz b = .error .valueError) ∧
    (order.posNumber = none ∨ kn.posInt = false →
      expCTE val source dest (some cond) ⟨.int l, .int k, .int s⟩ (.int c) (some (.int 0)) none kn order nx ny nz b = .error .valueError) ∧
    (l ≤ 0 ∨ k ≤ 0 ∨ c ≤ 0 ∨ s ≤ 0 →
      expCTE val source dest (some cond) ⟨.int l, .int k, .int s⟩ (.int c) (some (.int 0)) none kn order nx ny nz b = .error .valueError) := by
  have h0 : source.length ≠ dest.length ∨ source.length ≠ cond.length →
      expCTE val source dest (some cond) ⟨.int l, .int k, .int s⟩ (.int c) (some (.int 0)) none kn order nx ny nz b = .error .valueError := by
    intro h
    simp [expCTE, cteInit, h, bind, Except.bind]
  have hor : ∀ P : Prop, (source.length = dest.length → cond.length = dest.length → P) →
      ((source.length ≠ dest.length ∨ source.length ≠ cond.length) → P) → P := by
    intro P a c
    by_cases h1 : source.length = dest.length
    · by_cases h2 : source.length = cond.length
      · exact a h1 (h2 ▸ h1)
      · exact c (.inr h2)
    · exact c (.inl h1)
  have h1 : order.posNumber = none ∨ kn.posInt = false →
      expCTE val source dest (some cond) ⟨.int l, .int k, .int s⟩ (.int c) (some (.int 0)) none kn order nx ny nz b = .error .valueError := by
    intro h
    refine hor _ (fun hlen hlen2 => ?_) h0
    simp only [expCTE, cteInit_zero hlen hlen2, bind, Except.bind, expParams_error h]
  refine ⟨rfl, h0, h1, ?_⟩
  intro h
  refine hor _ (fun hlen hlen2 => ?_) h0
  have hp : [PyArg.int l, PyArg.int k, PyArg.int c, PyArg.int s].all PyArg.posInt = false := by
    simp [PyArg.posInt]; omega
  by_cases hp' : order.posNumber = none ∨ kn.posInt = false
  · exact h1 hp'
  · obtain ⟨q, hq⟩ := Option.ne_none_iff_exists'.1 (not_or.1 hp').1
    have hk : kn.posInt = true := by simpa using (not_or.1 hp').2
    simp only [expCTE, cteInit_zero hlen hlen2, bind, Except.bind, expParams_ok hk hq, expStepCheck]
    split_ifs
    · simp only [cteObservations, hp, if_true]
    · rfl

example := And.intro ((C65_cte_errors renyiVal [0, 1, 3] [1, 0, 2] [1, 1] 1 1 1 1 (.int 1) (.num 2) none none none .e).2.1 (by simp))
  ((C65_cte_errors renyiVal [0, 1, 3] [1, 0, 2] [1, 1, 1] 1 1 0 1 (.int 1) (.num 2) none none none .e).2.2.2 (by simp))

/-- The noise only enters through the series. -/
theorem C65_te_noise (val : ExpVal) (source dest : List ℝ) (hlen : source.length = dest.length) (p : TEParams) (kn order : PyArg)
    (nx ny : Option (Nat → ℝ)) (b : Base) (rnd : SrcRandom) :
    expTE val source dest p (some (.int 0)) none kn order nx ny b rnd =
      expTE val (jitter1 nx source) (jitter1 ny dest) p (some (.int 0)) none kn order none none b rnd := by
  have hj : ∀ (e : Option (Nat → ℝ)) (xs : List ℝ), (jitter1 e xs).length = xs.length := by
    intro e xs; cases e <;> simp [jitter1]
  unfold expTE
  rw [teInit_zero hlen, teInit_zero (by rw [hj, hj, hlen])]
  rfl

example := C65_te_noise renyiVal [0, 1, 3] [1, 0, 2] rfl (teParams 1 1 1) (.int 1) (.num 2) (some (fun i => i)) none .e {}

/-- embedding commutes with affine maps of the series -/
theorem embedded_affine (source dest : List ℝ) (l k s : Nat) (hs : 0 < s) (hm : max k l * s < source.length)
    (hlen : source.length = dest.length) (rnd : SrcRandom) (hr : rnd.Lawful) (c ox oy : ℝ) :
    futRows (dest.map (fun x => c * x + oy)) (dest.map (fun x => c * x + oy)).length (max k l) s =
        (futRows dest dest.length (max k l) s).map (fun r => r.mapIdx (fun _ x => c * x + oy)) ∧
    histRows (dest.map (fun x => c * x + oy)) (dest.map (fun x => c * x + oy)).length (max k l) s k =
        (histRows dest dest.length (max k l) s k).map (fun r => r.mapIdx (fun _ x => c * x + oy)) ∧
    (srcSel rnd (numRows (dest.map (fun x => c * x + oy)).length (max k l) s)).map
        (histRow (source.map (fun x => c * x + ox)) (max k l) s l) =
      ((srcSel rnd (numRows dest.length (max k l) s)).map (histRow source (max k l) s l)).map
        (fun r => r.mapIdx (fun _ x => c * x + ox)) := by
  have hidx : ∀ i < numRows dest.length (max k l) s, (max k l + i) * s < dest.length := fun i hi =>
    (lt_numRows hs (by omega)).1 hi
  refine ⟨?_, ?_, ?_⟩
  · unfold futRows
    rw [List.length_map, List.map_map]
    refine List.map_congr_left fun i hi => ?_
    have := hidx i (List.mem_range.1 hi)
    simp [List.getD_eq_getElem?_getD, this]
  · unfold histRows
    rw [List.length_map, List.map_map]
    refine List.map_congr_left fun i hi => ?_
    simp only [Function.comp]
    rw [histRow_map _ (le_max_left k l) (hidx i (List.mem_range.1 hi)), mapIdx_const_fn]
  · rw [List.length_map, List.map_map]
    refine List.map_congr_left fun i hi => ?_
    simp only [Function.comp]
    rw [histRow_map _ (le_max_right k l) (by rw [hlen]; exact hidx i (srcSel_lt hr _ i hi)), mapIdx_const_fn]

/-- **C65** Shifting the series changes nothing, whatever the parameters. -/
theorem C65_te_shift (val : ExpVal) (source dest : List ℝ) (l k s : Nat) (hs : 0 < s) (hl : 0 < l) (hk : 0 < k)
    (hm : max k l * s < source.length) (hlen : source.length = dest.length) (kn order : PyArg) (b : Base) (rnd : SrcRandom)
    (hr : rnd.Lawful) (ox oy : ℝ) :
    expTE val (source.map (· + ox)) (dest.map (· + oy)) (teParams l k s) (some (.int 0)) none kn order none none b rnd =
      expTE val source dest (teParams l k s) (some (.int 0)) none kn order none none b rnd := by
  obtain ⟨H, h⟩ := C65_te_is_cmi val source dest l k s hs hl hk hm hlen kn order b rnd hr
  have ex : source.map (· + ox) = source.map (fun x => 1 * x + ox) := by simp
  have ey : dest.map (· + oy) = dest.map (fun x => 1 * x + oy) := by simp
  rw [ex, ey]
  obtain ⟨H', h'⟩ := C65_te_is_cmi val (source.map (fun x => 1 * x + ox)) (dest.map (fun x => 1 * x + oy)) l k s hs hl hk
    (by simpa using hm) (by simpa using hlen) kn order b rnd hr
  obtain ⟨eF, eD, eG⟩ := embedded_affine source dest l k s hs hm hlen rnd hr 1 ox oy
  have g := C65_cmi_shift val
    [(.two ⟨1, futRows dest dest.length (max k l) s⟩, fun _ => oy),
      (.two ⟨l, (srcSel rnd (numRows dest.length (max k l) s)).map (histRow source (max k l) s l)⟩, fun _ => ox)]
    (.two ⟨k, histRows dest dest.length (max k l) s k⟩) (fun _ => oy) _ H kn order b
  rw [h, h', eF, eD, eG]
  exact g

example := C65_te_shift renyiVal [0, 1, 3, 2, 5] [1, 0, 4, 2, 3] 1 2 1 (by decide) (by decide) (by decide) (by simp) rfl (.int 1) (.num 2)
  .e {} lawful_none 7 (-1)

/-- **C65** Rényi transfer entropy: scaling both series by the same factor changes nothing, as long as no destination history has `k`
duplicates. -/
theorem C65_te_renyi_scale (source dest : List ℝ) (l k s : Nat) (hs : 0 < s) (hl : 0 < l) (hk : 0 < k)
    (hm : max k l * s < source.length) (hlen : source.length = dest.length) (kn : Nat) (hkn : 0 < kn)
    (hR : kn < numRows dest.length (max k l) s) (order : PyArg) (q : ℝ) (ho : order.posNumber = some q) (hq : q < kn + 1)
    (b : Base) (hb : b.Valid) (rnd : SrcRandom) (hr : rnd.Lawful) (c : ℝ) (hc : c ≠ 0) (ox oy : ℝ)
    (hpos : ∀ t < numRows dest.length (max k l) s, ∀ ε, IsKthDist (numRows dest.length (max k l) s) kn t
      (dists (some 2) (histRows dest dest.length (max k l) s k) t) ε → 0 < ε) :
    expTE renyiVal (source.map (fun x => c * x + ox)) (dest.map (fun x => c * x + oy)) (teParams l k s) (some (.int 0)) none (.int kn)
        order none none b rnd =
      expTE renyiVal source dest (teParams l k s) (some (.int 0)) none (.int kn) order none none b rnd := by
  obtain ⟨H, h⟩ := C65_te_is_cmi renyiVal source dest l k s hs hl hk hm hlen (.int kn) order b rnd hr
  obtain ⟨H', h'⟩ := C65_te_is_cmi renyiVal (source.map (fun x => c * x + ox)) (dest.map (fun x => c * x + oy)) l k s hs hl hk
    (by simpa using hm) (by simpa using hlen) (.int kn) order b rnd hr
  obtain ⟨eF, eD, eG⟩ := embedded_affine source dest l k s hs hm hlen rnd hr c ox oy
  have g := C65_cmi_renyi_scale_two (.two ⟨1, futRows dest dest.length (max k l) s⟩)
    (.two ⟨l, (srcSel rnd (numRows dest.length (max k l) s)).map (histRow source (max k l) s l)⟩)
    (.two ⟨k, histRows dest dest.length (max k l) s k⟩) (fun _ => oy) (fun _ => ox) (fun _ => oy) _ H c hc kn hkn hR order q ho hq b hb hpos
  rw [h, h', eF, eD, eG]
  exact g

/-- series of three values: two rows, whose destination histories are 1 and 0 -/
example := C65_te_renyi_scale [0, 1, 3] [1, 0, 4] 1 1 1 (by decide) (by decide) (by decide) (by simp) rfl 1 (by decide) (by decide)
  (.num (3 / 2)) (3 / 2) (by simp [PyArg.posNumber]) (by norm_num) (.num 2) (by norm_num [Base.Valid]) {} lawful_none (-2) (by norm_num) 7 1
  (by
    intro t ht ε hε
    have ht' : t < 2 := ht
    rw [two_kth ht' hε]
    interval_cases t <;> simp [dists, histRows, histRow, numRows, line_distance, List.range_succ])

/-- `k` at least the number of embedded rows is a ValueError. -/
theorem C65_te_k_too_large (val : ExpVal) (source dest : List ℝ) (l k s : Nat) (hs : 0 < s) (hl : 0 < l) (hk : 0 < k)
    (hm : max k l * s < source.length) (hlen : source.length = dest.length) (kn : Nat)
    (hR : numRows dest.length (max k l) s ≤ kn) (order : PyArg) (b : Base) (rnd : SrcRandom) (hr : rnd.Lawful) :
    expTE val source dest (teParams l k s) (some (.int 0)) none (.int kn) order none none b rnd = .error .valueError := by
  obtain ⟨H, h⟩ := C65_te_is_cmi val source dest l k s hs hl hk hm hlen (.int kn) order b rnd hr
  rw [h]
  exact (C65_cmi_errors val [] _ _ _ (some 0) false (.int kn) order noNoise none b).2.2.2.2 _ kn H hR rfl

/-- a case that satisfies the hypotheses: five samples, history one, two neighbours, four embedded rows, order 3/2 -/
example : ∃ v, expTE tsallisVal [0, 1, 3, 2, 5] [1, 0, 4, 2, 3] (teParams 1 1 1) (some (.int 0)) none (.int 2) (.num (3 / 2)) none none .e =
    .ok v :=
  C65_te_finite tsallisVal (.inr rfl) [0, 1, 3, 2, 5] [1, 0, 4, 2, 3] 1 1 1 (by simp) (by simp) (by simp) (by simp) rfl 2
    (by simp) (by simp [numRows]) (.num (3 / 2)) (3 / 2) (by simp [PyArg.posNumber]) (by norm_num) .e trivial {} lawful_none

end Verif
