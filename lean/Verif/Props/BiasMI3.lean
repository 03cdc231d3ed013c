import Verif.Props.BiasMI2
import Verif.Props.TE3

/-! # Property C66 continued: time offsets and propagation times -/

namespace Verif

open Spec

theorem biasMI_of_init {c : BiasClass} {xs ys xs' ys' : List Int} {o : Int}
    (h : miInit [xs, ys] (some o) = .ok [xs', ys']) (hl : xs'.length = ys'.length) (b : Base) :
    biasMI c [xs, ys] (some o) b = biasMI c [xs', ys'] (some 0) b := by
  have h0 : miInit [xs', ys'] (some 0) = .ok [xs', ys'] := miInit_ok (N := xs'.length) (by simp) (by simp [hl])
  simp only [biasMI, genericMI, h, h0, bind, Except.bind]

/-- **C53** With an offset `o`, the entropy combination of any estimator is the one of the overlapping parts of the two
series (for the joint entropy as for the marginal ones). -/
theorem C53_generic_mi_offset (est : HEst) (xs ys : List Int) (h : xs.length = ys.length) (o : Int) :
    ∃ xs' ys', xs'.length = xs.length - o.natAbs ∧ ys'.length = xs.length - o.natAbs ∧
      (∀ t, t < xs.length - o.natAbs →
        (0 ≤ o → xs'[t]? = xs[t]? ∧ ys'[t]? = ys[t + o.natAbs]?) ∧
        (o < 0 → xs'[t]? = xs[t + o.natAbs]? ∧ ys'[t]? = ys[t]?)) ∧
      genericMI est [xs, ys] (some o) = genericMI est [xs', ys'] (some 0) := by
  obtain ⟨xs', ys', h1, h2, h3, h4⟩ := C25_mi_offset_pairs xs ys h o
  have h0 : miInit [xs', ys'] (some 0) = .ok [xs', ys'] := miInit_ok (N := xs'.length) (by simp) (by simp [h2, h3])
  exact ⟨xs', ys', h2, h3, h4, by simp only [genericMI, h1, h0, bind, Except.bind]⟩

example := C53_generic_mi_offset (shrinkH .e) [5, 7, 5] [0, 0, 1] rfl (-1)

/-- **C66** With an offset `o` the bias-corrected mutual information is the one of the overlapping parts of the two series,
the second one `o` samples later (or the first one `-o` samples later). -/
theorem C66_mi_offset (c : BiasClass) (xs ys : List Int) (h : xs.length = ys.length) (o : Int) (b : Base) :
    ∃ xs' ys', xs'.length = xs.length - o.natAbs ∧ ys'.length = xs.length - o.natAbs ∧
      (∀ t, t < xs.length - o.natAbs →
        (0 ≤ o → xs'[t]? = xs[t]? ∧ ys'[t]? = ys[t + o.natAbs]?) ∧
        (o < 0 → xs'[t]? = xs[t + o.natAbs]? ∧ ys'[t]? = ys[t]?)) ∧
      biasMI c [xs, ys] (some o) b = biasMI c [xs', ys'] (some 0) b := by
  obtain ⟨xs', ys', h1, h2, h3, h4⟩ := C25_mi_offset_pairs xs ys h o
  exact ⟨xs', ys', h2, h3, h4, biasMI_of_init h1 (h2.trans h3.symm) b⟩

example := C66_mi_offset .shrink [5, 7, 5] [0, 0, 1] rfl 1 .e

/-- **C66** `MI(x, y, offset=o) = MI(y, x, offset=−o)` for every bias-corrected class, for every offset smaller than the
series. -/
theorem C66_mi_offset_swap (c : BiasClass) (m : Method) (hm : c.Means m) (xs ys : List Int) (h : xs.length = ys.length)
    (o : Int) (ho : o.natAbs < xs.length) (b : Base) (hb : b.Valid) :
    biasMI c [xs, ys] (some o) b = biasMI c [ys, xs] (some (-o)) b := by
  have key : ∀ us vs : List Int, us.length = vs.length → 0 < us.length →
      biasMI c [us, vs] (some 0) b = biasMI c [vs, us] (some 0) b := fun us vs hl hp =>
    C66_mi_order c m hm _ _ (List.Perm.swap vs us []) us.length hp (by simp) (by simp [hl]) b hb
  rcases Int.le_total 0 o with ho' | ho'
  · obtain ⟨n, rfl⟩ := Int.eq_ofNat_of_zero_le ho'
    have hn : n < xs.length := by simpa using ho
    rw [biasMI_of_init (miInit_offset xs ys h n).1 (by simp [h]) b, biasMI_of_init (miInit_offset ys xs h.symm n).2 (by simp [h]) b]
    exact key _ _ (by simp [h]) (by simp; omega)
  · obtain ⟨n, hn⟩ := Int.eq_ofNat_of_zero_le (by omega : 0 ≤ -o)
    obtain rfl : o = -(n : Int) := by omega
    have hn : n < xs.length := by simpa using ho
    rw [biasMI_of_init (miInit_offset xs ys h n).2 (by simp [h]) b, neg_neg,
      biasMI_of_init (miInit_offset ys xs h.symm n).1 (by simp [h]) b]
    exact key _ _ (by simp [h]) (by simp; omega)

example := C66_mi_offset_swap .shrink .shrink .shrink [5, 7, 5] [0, 0, 1] rfl (-1) (by decide) (.num 2) (by norm_num [Base.Valid])

/-- the constructor of the transfer-entropy classes shifts the series and nothing else -/
theorem biasTE_of_init {c : BiasClass} {source dest x y : List Int} {pt off : Option PyArg} {l k s : Nat}
    (h : teInit source dest pt off (.int s) = .ok (x, y)) (hl : x.length = y.length) (b : Base) (rnd : SrcRandom) :
    biasTE c source dest (teParams l k s) pt off b rnd = biasTE c x y (teParams l k s) (some (.int 0)) none b rnd := by
  simp only [biasTE, genericTE, teParams, h, teInit_zero hl, bind, Except.bind]

theorem teInit_shift {α : Type} (source dest : List α) (hlen : source.length = dest.length) (p : Int) (s : Nat) (hs : 0 < s) :
    ∃ x y, x.length = source.length - p.natAbs * s ∧ y.length = source.length - p.natAbs * s ∧
      (∀ t, t < source.length - p.natAbs * s →
        (0 ≤ p → x[t]? = source[t]? ∧ y[t]? = dest[t + p.natAbs * s]?) ∧
        (p < 0 → x[t]? = source[t + p.natAbs * s]? ∧ y[t]? = dest[t]?)) ∧
      teInit source dest (some (.int p)) none (.int s) = .ok (x, y) ∧
      teInit source dest (some (.int 0)) (some (.int p)) (.int s) = .ok (x, y) := by
  have hofs : teInit source dest (some (.int 0)) (some (.int p)) (.int s) =
      teInit source dest (some (.int p)) none (.int s) := by
    by_cases h0 : p = 0
    · subst h0; simp [teInit]
    · simp [teInit, h0]
  rw [hofs]
  rcases Int.lt_trichotomy p 0 with hp | rfl | hp
  · obtain ⟨n, hn⟩ := Int.eq_ofNat_of_zero_le (by omega : 0 ≤ -p)
    obtain rfl : p = -(n : Int) := by omega
    have hn0 : 0 < n := by omega
    have hns : 0 < n * s := Nat.mul_pos hn0 hs
    have h : teInit source dest (some (.int (-(n : Int)))) none (.int s) =
        .ok (source.drop (n * s), dest.take (dest.length - n * s)) := by
      have e1 : - -(n : Int) * s = ((n * s : ℕ) : Int) := by push_cast; ring
      have e2 : -(n : Int) * s = -((n * s : ℕ) : Int) := by push_cast; ring
      have h1 : ¬ (-(n : Int) = 0) := by omega
      have h2 : ¬ (0 < -(n : Int)) := by omega
      simp only [teInit, not_true_eq_false, if_false, hlen, ne_eq, h1, h2, e1, e2, pySlice_start,
        pySlice_stop_neg _ _ hns]
    refine ⟨_, _, by simp, by simp [hlen], fun t ht => ⟨fun h' => by omega, fun _ => ?_⟩, h, h⟩
    have ht' : t < dest.length - n * s := by simpa [hlen] using ht
    rw [List.getElem?_take_of_lt ht', List.getElem?_drop]
    simp [add_comm]
  · exact ⟨source, dest, by simp, by simp [hlen], fun t _ => by simp, teInit_zero hlen _, teInit_zero hlen _⟩
  · obtain ⟨n, rfl⟩ := Int.eq_ofNat_of_zero_le hp.le
    have hn0 : 0 < n := by omega
    have hns : 0 < n * s := Nat.mul_pos hn0 hs
    have h : teInit source dest (some (.int (n : Int))) none (.int s) =
        .ok (source.take (source.length - n * s), dest.drop (n * s)) := by
      have e1 : (n : Int) * s = ((n * s : ℕ) : Int) := by push_cast; ring
      have e2 : -(n : Int) * s = -((n * s : ℕ) : Int) := by push_cast; ring
      have h1 : ¬ ((n : Int) = 0) := by omega
      simp only [teInit, not_true_eq_false, if_false, hlen, ne_eq, h1, hp, if_true, e1, e2, pySlice_start,
        pySlice_stop_neg _ _ hns]
    refine ⟨_, _, by simp, by simp [hlen], fun t ht => ⟨fun _ => ?_, fun h' => by omega⟩, h, h⟩
    have ht' : t < source.length - n * s := by simpa using ht
    rw [List.getElem?_take_of_lt ht', List.getElem?_drop]
    simp [add_comm]

/-- **C66** Propagation time (or its alias `offset`) of the bias-corrected transfer entropies: the result is the transfer
entropy of the overlapping parts, the destination `p·step` samples later. -/
theorem C66_te_propagation_time (c : BiasClass) (source dest : List Int) (hlen : source.length = dest.length) (p : Int)
    (l k s : Nat) (hs : 0 < s) (b : Base) (rnd : SrcRandom) :
    ∃ x y, x.length = source.length - p.natAbs * s ∧ y.length = source.length - p.natAbs * s ∧
      (∀ t, t < source.length - p.natAbs * s →
        (0 ≤ p → x[t]? = source[t]? ∧ y[t]? = dest[t + p.natAbs * s]?) ∧
        (p < 0 → x[t]? = source[t + p.natAbs * s]? ∧ y[t]? = dest[t]?)) ∧
      biasTE c source dest (teParams l k s) (some (.int p)) none b rnd =
        biasTE c x y (teParams l k s) (some (.int 0)) none b rnd ∧
      biasTE c source dest (teParams l k s) (some (.int 0)) (some (.int p)) b rnd =
        biasTE c x y (teParams l k s) (some (.int 0)) none b rnd := by
  obtain ⟨x, y, h1, h2, h3, h4, h5⟩ := teInit_shift source dest hlen p s hs
  exact ⟨x, y, h1, h2, h3, biasTE_of_init h4 (h1.trans h2.symm) b rnd, biasTE_of_init h5 (h1.trans h2.symm) b rnd⟩

/-- the hypotheses are met by a concrete pair of series and offsets of both signs -/
example : ∃ (xs ys : List Int) (o p : Int), xs.length = ys.length ∧ o.natAbs < xs.length ∧ o < 0 ∧ 0 < p ∧
    BiasClass.grassberger.Means .grassberger :=
  ⟨[0, 1, 1, 0], [1, 1, 0, 1], -2, 1, rfl, by decide, by decide, by decide, .grassberger⟩

end Verif
