import Verif.Lemmas.Robust
import Verif.Props.EndToEnd3

/-!
# C100: a few changed observations move the results little

If `m` of `N` observations are replaced by anything else, the entropy moves by at most `m (1 + log N) / N` nats, mutual information by at most three
times, conditional mutual information and transfer entropy by at most four times as much.  With the ordinal approach one reading touches at most `d` patterns,
whatever its size.
-/

namespace Verif

open Spec

variable {W : World} {a : PyName} {kw : Kw} {b : Base} {cond : CondKw PyData} {l k s d : Nat}

/-- both calls succeed and their results differ by at most `δ` nats (`δ / log b` in the unit of the call) -/
def Within (b : Base) (δ : ℝ) (r r' : Except Exc ℝ) : Prop := ∃ v v', r = .ok v ∧ r' = .ok v' ∧ |v - v'| ≤ δ / b.ln

theorem within_of {u v δ : ℝ} (hb : b.Std) (h : |u - v| ≤ δ) : Within b δ (.ok (u / b.ln)) (.ok (v / b.ln)) := by
  refine ⟨_, _, rfl, rfl, ?_⟩
  rw [← sub_div, abs_div, abs_of_pos hb.ln_pos]
  exact div_le_div_of_nonneg_right h hb.ln_pos.le

/-- **C100** `im.entropy(x)` -/
theorem C100_entropy (h : Call W .h .discrete a kw b) (hb : b.Std) (xs xs' : List Int) (hx : xs ≠ []) (hl : xs.length = xs'.length) :
    Within b (changed xs xs' * ((1 + Real.log xs.length) / xs.length))
      (imEntropy W [.ints xs] a .absent kw) (imEntropy W [.ints xs'] a .absent kw) := by
  have hx' : xs' ≠ [] := by rintro rfl; simp at hl; exact hx hl
  rw [C82_entropy .discrete (by simp [simpleFams]) h hb xs hx, C82_entropy .discrete (by simp [simpleFams]) h hb xs' hx']
  exact within_of hb (rb_entropy_diff xs xs' hl)

/-- **C100** `im.entropy(x, approach="miller_madow")` -/
theorem C100_entropy_miller_madow (h : Call W .h .millerMadow a kw b) (hb : b.Std) (xs xs' : List Int) (hx : xs ≠ []) (hl : xs.length = xs'.length) :
    Within b (changed xs xs' * ((3 / 2 + Real.log xs.length) / xs.length))
      (imEntropy W [.ints xs] a .absent kw) (imEntropy W [.ints xs'] a .absent kw) := by
  have hx' : xs' ≠ [] := by rintro rfl; simp at hl; exact hx hl
  have hN : (0 : ℝ) < xs.length := by exact_mod_cast List.length_pos_iff.2 hx
  rw [C82_entropy .millerMadow (by simp [simpleFams]) h hb xs hx, C82_entropy .millerMadow (by simp [simpleFams]) h hb xs' hx']
  refine within_of hb ?_
  simp only [entropyFormula]
  rw [← hl]
  have e1 := rb_entropy_diff xs xs' hl
  have e2 := rb_card_diff xs xs' hl
  have e3 : |((xs.toFinset.card : ℝ) - 1) / (2 * xs.length) - ((xs'.toFinset.card : ℝ) - 1) / (2 * xs.length)| ≤ changed xs xs' * (1 / 2 / xs.length) := by
    rw [← sub_div, abs_div, abs_of_pos (by positivity : (0 : ℝ) < 2 * xs.length), sub_sub_sub_cancel_right,
      show (changed xs xs' : ℝ) * (1 / 2 / xs.length) = changed xs xs' / (2 * xs.length) by field_simp]
    exact div_le_div_of_nonneg_right e2 (by positivity)
  have e4 : (changed xs xs' : ℝ) * ((3 / 2 + Real.log xs.length) / xs.length) =
      changed xs xs' * ((1 + Real.log xs.length) / xs.length) + changed xs xs' * (1 / 2 / xs.length) := by ring
  rw [e4]
  refine le_trans ?_ (add_le_add e1 e3)
  refine le_trans (le_of_eq ?_) (abs_add_le _ _)
  congr 1; ring

/-- **C100** `im.entropy((x, y, ...))`: a joint observation is changed when one of its components is. -/
theorem C100_joint_entropy (h : Call W .h .discrete a kw b) (hb : b.Std) (cols cols' : List (List Int)) (n : Nat) (hn : 0 < n)
    (hne : cols ≠ []) (hne' : cols' ≠ []) (hl : ∀ c ∈ cols, c.length = n) (hl' : ∀ c ∈ cols', c.length = n) :
    Within b (changed (rows n cols) (rows n cols') * ((1 + Real.log n) / n))
      (imEntropy W [.intTup cols] a .absent kw) (imEntropy W [.intTup cols'] a .absent kw) := by
  rw [C82_joint_entropy h hb.valid cols n hn hne hl, C82_joint_entropy h hb.valid cols' n hn hne' hl']
  have := rb_entropy_diff (rows n cols) (rows n cols') (by simp [rows])
  rw [show (rows n cols).length = n by simp [rows]] at this
  exact within_of hb this

/-- **C100** `im.mutual_information(x, y)`; a pair is changed when one of its members is. -/
theorem C100_mi (h : Call W .mi .discrete a kw b) (hb : b.Std) (hc : cond.isVal = false) (ho : kwOr kw "offset" (.int 0) = .int 0)
    (xs ys xs' ys' : List Int) (hx : xs ≠ []) (h1 : xs.length = ys.length) (h2 : xs'.length = ys'.length) (h3 : xs.length = xs'.length)
    (hov : xs.length < 2 ^ 32) :
    Within b (3 * changed (xs.zip ys) (xs'.zip ys') * ((1 + Real.log xs.length) / xs.length))
      (imMI W [.ints xs, .ints ys] a cond kw) (imMI W [.ints xs', .ints ys'] a cond kw) := by
  have hx' : xs' ≠ [] := by rintro rfl; simp at h3; exact hx h3
  rw [C82_mi_two h hb hc ho xs ys h1 hx hov, C82_mi_two h hb hc ho xs' ys' h2 hx' (h3 ▸ hov)]
  exact within_of hb (rb_mi_diff xs xs' ys ys' h1 h2 h3)

/-- **C100** three or more variables, none constant before or after the change -/
theorem C100_mi_many (h : Call W .mi .discrete a kw b) (hb : b.Std) (hc : cond.isVal = false) (ho : kwOr kw "offset" (.int 0) = .int 0)
    (cols cols' : List (List Int)) (N : Nat) (hN : 0 < N) (h2 : 2 ≤ cols.length) (h3 : cols.length = cols'.length) (hl : ∀ c ∈ cols, c.length = N)
    (hl' : ∀ c ∈ cols', c.length = N) (hov : N ^ cols.length < 2 ^ 64) (hn : ∀ c ∈ cols, ¬ IsConst c) (hn' : ∀ c ∈ cols', ¬ IsConst c) :
    Within b ((cols.length + 1) * changed (rows N cols) (rows N cols') * ((1 + Real.log N) / N))
      (imMI W (cols.map .ints) a cond kw) (imMI W (cols'.map .ints) a cond kw) := by
  rw [C82_mi h hb hc ho cols N hN h2 hl hov, C82_mi h hb hc ho cols' N hN (h3 ▸ h2) hl' (h3 ▸ hov),
    if_neg (fun hh => by obtain ⟨_, c, h1, h2⟩ := hh; exact hn c h1 h2), if_neg (fun hh => by obtain ⟨_, c, h1, h2⟩ := hh; exact hn' c h1 h2)]
  refine within_of hb ?_
  unfold totalCorrelation
  have hL : 0 ≤ (1 + Real.log N) / N := by
    have := Real.log_natCast_nonneg N
    positivity
  have lr : ∀ cs : List (List Int), (rows N cs).length = N := fun cs => by simp [rows]
  have a0 := rb_entropy_diff (rows N cols) (rows N cols') (by rw [lr, lr])
  rw [lr] at a0
  have col : ∀ (cs : List (List Int)) (i : Nat) (hi : i < cs.length), cs[i].length = N →
      cs[i] = (rows N cs).map (fun r => r.getD i default) := by
    intro cs i hi hlen
    refine List.ext_getElem (by rw [List.length_map, lr, hlen]) fun t ht1 ht2 => ?_
    simp [rows, row, hi, ht1]
  have key : ∀ (m : ℕ), m ≤ cols.length → |((cols.take m).map entropy).sum - ((cols'.take m).map entropy).sum| ≤
      m * (changed (rows N cols) (rows N cols') * ((1 + Real.log N) / N)) := by
    intro m
    induction m with
    | zero => intro; simp
    | succ m ih =>
      intro hm
      have i1 : m < cols.length := hm
      have i2 : m < cols'.length := h3 ▸ hm
      have e1 := hl _ (List.getElem_mem i1)
      have e2 := hl' _ (List.getElem_mem i2)
      have d := rb_entropy_diff cols[m] cols'[m] (by rw [e1, e2])
      rw [e1] at d
      have c := changed_map_le (fun r => r.getD m default) (rows N cols) (rows N cols')
      rw [← col cols m i1 e1, ← col cols' m i2 e2] at c
      have c' : (changed cols[m] cols'[m] : ℝ) ≤ changed (rows N cols) (rows N cols') := by exact_mod_cast c
      have d2 := d.trans (mul_le_mul_of_nonneg_right c' hL)
      have ih' := ih (by omega)
      rw [List.take_succ_eq_append_getElem i1, List.take_succ_eq_append_getElem i2]
      simp only [List.map_append, List.sum_append, List.map_cons, List.map_nil, List.sum_cons, List.sum_nil, add_zero]
      push_cast
      rw [abs_le] at d2 ih' ⊢
      constructor <;> linarith [d2.1, d2.2, ih'.1, ih'.2]
  have kf := key cols.length le_rfl
  rw [List.take_length, h3, List.take_length, ← h3] at kf
  rw [abs_le] at a0 kf ⊢
  constructor <;> linarith [a0.1, a0.2, kf.1, kf.2]

/-- **C100** the condition is needed: one changed observation that makes the third variable constant drops the result from at least `H(x)` to 0,
however long the series. -/
theorem C100_three_variables_jump (h : Call W .mi .discrete a kw b) (hb : b.Std) (hc : cond.isVal = false) (ho : kwOr kw "offset" (.int 0) = .int 0)
    (x : List Int) (hx : ¬ IsConst x) (hov : x.length ^ 3 < 2 ^ 64) :
    ∃ z z' : List Int, z.length = x.length ∧ z'.length = x.length ∧ changed z z' = 1 ∧
      (∃ v, imMI W [.ints x, .ints x, .ints z] a cond kw = .ok v ∧ entropy x / b.ln ≤ v) ∧
      imMI W [.ints x, .ints x, .ints z'] a cond kw = .ok 0 := by
  have hlen : 2 ≤ x.length := by
    by_contra hlt
    apply hx
    match x, hlt with
    | [], _ => intro u hu; simp at hu
    | [u], _ => intro v hv w hw; simp at hv hw; rw [hv, hw]
    | _ :: _ :: _, hh => simp at hh
  obtain ⟨n, hn⟩ : ∃ n, x.length = n + 2 := ⟨x.length - 2, by omega⟩
  refine ⟨1 :: List.replicate (n + 1) 0, 0 :: List.replicate (n + 1) 0, by simp [hn], by simp [hn], ?_, ?_, ?_⟩
  · rw [changed_cons]
    have : changed (List.replicate (n + 1) (0 : Int)) (List.replicate (n + 1) 0) = 0 := by simp [changed]
    rw [this]; simp
  · set z : List Int := 1 :: List.replicate (n + 1) 0 with hz
    have hzl : z.length = x.length := by simp [hz, hn]
    have hzc : ¬ IsConst z := fun hh => by
      have := hh 1 (by simp [hz]) 0 (by simp [hz, List.replicate_succ])
      simp at this
    have e := C82_mi h hb hc ho [x, x, z] x.length (by omega) (by simp) (by simp [hzl]) (by simpa using hov)
    rw [if_neg (fun hh => by
      obtain ⟨_, c, h1, h2⟩ := hh
      simp only [List.mem_cons, List.not_mem_nil, or_false] at h1
      rcases h1 with rfl | rfl | rfl
      · exact hx h2
      · exact hx h2
      · exact hzc h2)] at e
    refine ⟨_, e, div_le_div_of_nonneg_right ?_ hb.ln_pos.le⟩
    unfold totalCorrelation
    simp only [List.map_cons, List.map_nil, List.sum_cons, List.sum_nil, add_zero]
    have gx : (List.range x.length).map (fun t => x.getD t default) = x := by
      refine List.ext_getElem (by simp) fun t h1 h2 => by simp [h2]
    have gz : (List.range x.length).map (fun t => z.getD t default) = z := by
      refine List.ext_getElem (by simp [hzl]) fun t h1 h2 => by simp [h2]
    have p := entropy_pair_le (List.range x.length) (fun t => x.getD t default) (fun t => z.getD t default)
    rw [gx, gz] at p
    have q : entropy (rows x.length [x, x, z]) = entropy ((List.range x.length).map (fun t => (x.getD t default, z.getD t default))) := by
      unfold rows
      refine entropy_map_congr _ _ _ fun u _ v _ => ?_
      simp [row]
    rw [q]
    linarith
  · have e := C82_mi h hb hc ho [x, x, 0 :: List.replicate (n + 1) 0] x.length (by omega) (by simp) (by simp [hn]) (by simpa using hov)
    rw [if_pos ⟨by simp, 0 :: List.replicate (n + 1) 0, by simp, fun u hu v hv => by
      simp only [List.mem_cons, List.mem_replicate, ne_eq] at hu hv
      omega⟩] at e
    exact e

/-- **C100** `im.conditional_mutual_information(x, y, cond=z)` and `im.mutual_information(x, y, cond=z)` -/
theorem C100_cmi (h : Call W .cmi .discrete a kw b) (hb : b.Std) (ho : kwOr kw "offset" (.int 0) = .int 0)
    (xs ys z xs' ys' z' : List Int) (hx : xs ≠ []) (h1 : xs.length = ys.length) (h2 : ys.length = z.length) (h1' : xs'.length = ys'.length)
    (h2' : ys'.length = z'.length) (h3 : xs.length = xs'.length) (hov : xs.length < 2 ^ 32) :
    let δ := 4 * changed (xs.zip (ys.zip z)) (xs'.zip (ys'.zip z')) * ((1 + Real.log xs.length) / xs.length)
    Within b δ (imCMI W [.ints xs, .ints ys] a (.val (.ints z)) kw) (imCMI W [.ints xs', .ints ys'] a (.val (.ints z')) kw) ∧
      Within b δ (imMI W [.ints xs, .ints ys] a (.val (.ints z)) kw) (imMI W [.ints xs', .ints ys'] a (.val (.ints z')) kw) := by
  intro δ
  have hx' : xs' ≠ [] := by rintro rfl; simp at h3; exact hx h3
  obtain ⟨e1, e2⟩ := C82_cmi h hb.valid ho xs ys z h1 h2 hx hov
  obtain ⟨f1, f2⟩ := C82_cmi h hb.valid ho xs' ys' z' h1' h2' hx' (h3 ▸ hov)
  rw [e1, e2, f1, f2]
  have := within_of hb (rb_cmi_diff xs xs' ys ys' z z' h1 h2 h1' h2' h3)
  exact ⟨this, this⟩

section
variable {α : Type} [DecidableEq α] [Inhabited α]

theorem rb_hist (xs xs' : List α) (m h : Nat) (hs : 0 < s) (hh : h ≤ m) (hm : m * s < xs.length) :
    changed (histRows xs xs.length m s h) (histRows xs' xs.length m s h) ≤ h * changed xs xs' := by
  have := changed_rows xs xs' (numRows xs.length m s) h (fun j t => (m + t - h + j) * s) id
    (fun j _ t _ t' _ e => by
      have := Nat.eq_of_mul_eq_mul_right hs e
      omega)
    (fun j hj t ht => by
      have h1 := (lt_numRows hs hm).1 ht
      refine lt_of_le_of_lt (Nat.mul_le_mul_right s ?_) h1
      omega)
  exact this

theorem rb_fut (xs xs' : List α) (m : Nat) (hs : 0 < s) (hm : m * s < xs.length) :
    changed (futRows xs xs.length m s) (futRows xs' xs.length m s) ≤ changed xs xs' := by
  have := changed_rows xs xs' (numRows xs.length m s) 1 (fun _ t => (m + t) * s) id
    (fun j _ t _ t' _ e => by
      have := Nat.eq_of_mul_eq_mul_right hs e
      omega)
    (fun j hj t ht => (lt_numRows hs hm).1 ht)
  rw [one_mul] at this
  exact this

/-- rows of the embedding that a change of the series can touch -/
theorem rb_te (xs ys xs' ys' : List α) (h1 : xs.length = ys.length) (h2 : xs'.length = ys'.length) (h3 : xs.length = xs'.length)
    (hs : 0 < s) (hm : max k l * s < xs.length) :
    |Spec.cmi (futRows ys ys.length (max k l) s) (histRows xs ys.length (max k l) s l) (histRows ys ys.length (max k l) s k) -
      Spec.cmi (futRows ys' ys'.length (max k l) s) (histRows xs' ys'.length (max k l) s l) (histRows ys' ys'.length (max k l) s k)| ≤
      4 * (l * changed xs xs' + (k + 1) * changed ys ys') *
        ((1 + Real.log (numRows ys.length (max k l) s)) / (numRows ys.length (max k l) s)) := by
  have hy : ys'.length = ys.length := by omega
  rw [hy]
  set m := max k l
  have lf : ∀ u : List α, (futRows u ys.length m s).length = numRows ys.length m s := fun u => by simp [futRows]
  have lh : ∀ (u : List α) (h : Nat), (histRows u ys.length m s h).length = numRows ys.length m s := fun u h => by simp [histRows]
  have key := rb_cmi_diff (futRows ys ys.length m s) (futRows ys' ys.length m s) (histRows xs ys.length m s l) (histRows xs' ys.length m s l)
    (histRows ys ys.length m s k) (histRows ys' ys.length m s k) (by rw [lf, lh]) (by rw [lh, lh]) (by rw [lf, lh]) (by rw [lh, lh]) (by rw [lf, lf])
  rw [lf] at key
  refine key.trans ?_
  have hL : 0 ≤ (1 + Real.log (numRows ys.length m s)) / (numRows ys.length m s) := by
    have := Real.log_natCast_nonneg (numRows ys.length m s)
    positivity
  refine mul_le_mul_of_nonneg_right ?_ hL
  have c1 := changed_zip_le (futRows ys ys.length m s) (futRows ys' ys.length m s)
    ((histRows xs ys.length m s l).zip (histRows ys ys.length m s k)) ((histRows xs' ys.length m s l).zip (histRows ys' ys.length m s k))
    (by rw [List.length_zip, lf, lh, lh, min_self])
  have c2 := changed_zip_le (histRows xs ys.length m s l) (histRows xs' ys.length m s l) (histRows ys ys.length m s k) (histRows ys' ys.length m s k)
    (by rw [lh, lh])
  have d1 := rb_fut ys ys' m hs (h1 ▸ hm)
  have d2 := rb_hist ys ys' m k hs (le_max_left _ _) (h1 ▸ hm)
  have d3 := rb_hist xs xs' m l hs (le_max_right _ _) hm
  rw [h1] at d3
  have : changed ((futRows ys ys.length m s).zip ((histRows xs ys.length m s l).zip (histRows ys ys.length m s k)))
      ((futRows ys' ys.length m s).zip ((histRows xs' ys.length m s l).zip (histRows ys' ys.length m s k))) ≤
      l * changed xs xs' + (k + 1) * changed ys ys' := by
    rw [add_mul, one_mul]; omega
  have h' : (changed ((futRows ys ys.length m s).zip ((histRows xs ys.length m s l).zip (histRows ys ys.length m s k)))
      ((futRows ys' ys.length m s).zip ((histRows xs' ys.length m s l).zip (histRows ys' ys.length m s k))) : ℝ) ≤
      l * changed xs xs' + (k + 1) * changed ys ys' := by exact_mod_cast this
  linarith

end

/-- **C100** `im.transfer_entropy(source, dest)`: a changed sample of the source touches at most `src_hist_len` rows of the embedding, one of the
destination at most `dest_hist_len + 1`. -/
theorem C100_te (h : Call W .te .discrete a kw b) (hb : b.Std) (hc : cond.isVal = false) (hh : History kw l k s) (hs : 0 < s)
    (hl : 0 < l) (hk : 0 < k) (x y x' y' : List Int) (hm : max k l * s < x.length) (h1 : x.length = y.length) (h2 : x'.length = y'.length)
    (h3 : x.length = x'.length) (hov : y.length < 2 ^ 32) :
    Within b (4 * (l * changed x x' + (k + 1) * changed y y') *
        ((1 + Real.log (numRows y.length (max k l) s)) / (numRows y.length (max k l) s)))
      (imTE W [.ints x, .ints y] a cond kw) (imTE W [.ints x', .ints y'] a cond kw) := by
  rw [C82_te h hb.valid hc hh hs hl hk x y hm h1 hov, C82_te h hb.valid hc hh hs hl hk x' y' (h3 ▸ hm) h2 (by omega)]
  exact within_of hb (rb_te x y x' y' h1 h2 h3 hs hm)

/-! ## Ordinal approach -/

theorem rb_patterns (x x' : List ℝ) (hl : x.length = x'.length) (hn : (d - 1) * s < x.length) :
    changed (ordPatterns x d s) (ordPatterns x' d s) ≤ d * changed x x' := by
  have := changed_rows x x' (x.length - (d - 1) * s) d (fun j t => t + j * s) rankPattern
    (fun j _ t _ t' _ e => by omega)
    (fun j hj t ht => by
      have : j * s ≤ (d - 1) * s := Nat.mul_le_mul_right s (by omega)
      omega)
  unfold ordPatterns delayVectors
  rw [List.map_map, List.map_map, ← hl]
  exact this

theorem rb_patterns_len (x : List ℝ) : (ordPatterns x d s).length = x.length - (d - 1) * s := by
  simp [ordPatterns, delayVectors]

/-- **C100** permutation entropy: `m` outliers, however large, move it by at most `d m (1 + log R) / R`, where `R` is the number of windows. -/
theorem C100_ordinal_entropy (h : Call W .h .ordinal a kw b) (hb : b.Std) (x x' : List ℝ) (st : Bool)
    (h1 : kw "embedding_dim" = some (.int d)) (h2 : kwOr kw "step_size" (.int 1) = .int s)
    (h3 : kwOr kw "stable" (.bool false) = .bool st) (hd : 1 ≤ d) (hs : 1 ≤ s) (hl : x.length = x'.length) (hn : (d - 1) * s < x.length)
    (ht : TieFree x d s) (ht' : TieFree x' d s) :
    let R := x.length - (d - 1) * s
    Within b (d * changed x x' * ((1 + Real.log R) / R)) (imEntropy W [.reals x] a .absent kw) (imEntropy W [.reals x'] a .absent kw) := by
  intro R
  rw [C82_ordinal_entropy h hb.valid x d s st h1 h2 h3 hd hs hn ht, C82_ordinal_entropy h hb.valid x' d s st h1 h2 h3 hd hs (hl ▸ hn) ht']
  refine within_of hb ?_
  have key := rb_entropy_diff (ordPatterns x d s) (ordPatterns x' d s) (by rw [rb_patterns_len, rb_patterns_len, hl])
  rw [rb_patterns_len] at key
  have hp : (changed (ordPatterns x d s) (ordPatterns x' d s) : ℝ) ≤ d * changed x x' := by exact_mod_cast rb_patterns x x' hl hn
  have hL : 0 ≤ (1 + Real.log R) / R := by
    have := Real.log_natCast_nonneg R
    positivity
  exact key.trans (mul_le_mul_of_nonneg_right hp hL)

/-- **C100** ordinal mutual information -/
theorem C100_ordinal_mi (h : Call W .mi .ordinal a kw b) (hb : b.Std) (hc : cond.isVal = false)
    (ho : kwOr kw "offset" (.int 0) = .int 0) (x y x' y' : List ℝ) (st : Bool)
    (k1 : kwOr kw "embedding_dim" .none = .int d) (k2 : kwOr kw "step_size" (.int 1) = .int s)
    (k3 : kwOr kw "stable" (.bool false) = .bool st) (hd : 1 ≤ d) (hs : 1 ≤ s) (h1 : x.length = y.length) (h2 : x'.length = y'.length)
    (h3 : x.length = x'.length) (hn : (d - 1) * s < x.length) (hov : x.length < 2 ^ 32) (htx : TieFree x d s) (hty : TieFree y d s)
    (htx' : TieFree x' d s) (hty' : TieFree y' d s) :
    let R := x.length - (d - 1) * s
    Within b (3 * (d * (changed x x' + changed y y')) * ((1 + Real.log R) / R)) (imMI W [.reals x, .reals y] a cond kw) (imMI W [.reals x', .reals y'] a cond kw) := by
  intro R
  rw [C82_mi_ordinal h hb hc ho x y d s st k1 k2 k3 hd hs h1 hn hov htx hty,
    C82_mi_ordinal h hb hc ho x' y' d s st k1 k2 k3 hd hs h2 (h3 ▸ hn) (h3 ▸ hov) htx' hty']
  refine within_of hb ?_
  have key := rb_mi_diff (ordPatterns x d s) (ordPatterns x' d s) (ordPatterns y d s) (ordPatterns y' d s)
    (by rw [rb_patterns_len, rb_patterns_len, h1]) (by rw [rb_patterns_len, rb_patterns_len, h2]) (by rw [rb_patterns_len, rb_patterns_len, h3])
  rw [rb_patterns_len] at key
  have c := changed_zip_le (ordPatterns x d s) (ordPatterns x' d s) (ordPatterns y d s) (ordPatterns y' d s) (by rw [rb_patterns_len, rb_patterns_len, h1])
  have p1 := rb_patterns (d := d) (s := s) x x' h3 hn
  have p2 := rb_patterns (d := d) (s := s) y y' (by omega) (h1 ▸ hn)
  have hp : (changed ((ordPatterns x d s).zip (ordPatterns y d s)) ((ordPatterns x' d s).zip (ordPatterns y' d s)) : ℝ) ≤
      d * (changed x x' + changed y y') := by
    have : changed ((ordPatterns x d s).zip (ordPatterns y d s)) ((ordPatterns x' d s).zip (ordPatterns y' d s)) ≤
      d * (changed x x' + changed y y') := by rw [Nat.mul_add]; omega
    exact_mod_cast this
  have hL : 0 ≤ (1 + Real.log R) / R := by
    have := Real.log_natCast_nonneg R
    positivity
  refine key.trans (mul_le_mul_of_nonneg_right ?_ hL)
  linarith

/-- **C100** ordinal transfer entropy -/
theorem C100_ordinal_te (h : Call W .te .ordinal a kw b) (hb : b.Std) (hc : cond.isVal = false) (hh : History kw l k s)
    (st : Bool) (k1 : kw "embedding_dim" = some (.int d)) (k3 : kwOr kw "stable" (.bool false) = .bool st)
    (hd : 1 ≤ d) (hd' : d ≤ 20) (hs : 1 ≤ s) (hl : 0 < l) (hk : 0 < k) (x y x' y' : List ℝ) (h1 : x.length = y.length) (h2 : x'.length = y'.length)
    (h3 : x.length = x'.length) (hn : (d - 1) * s + max k l * s < x.length) (hov : x.length < 2 ^ 32) (htx : TieFree x d s) (hty : TieFree y d s)
    (htx' : TieFree x' d s) (hty' : TieFree y' d s) :
    let R := numRows (x.length - (d - 1) * s) (max k l) s
    Within b (4 * (d * (l * changed x x' + (k + 1) * changed y y')) * ((1 + Real.log R) / R))
      (imTE W [.reals x, .reals y] a cond kw) (imTE W [.reals x', .reals y'] a cond kw) := by
  intro R
  rw [C82_te_ordinal h hb.valid hc hh d st k1 k3 hd hd' hs hl hk x y h1 hn hov htx hty,
    C82_te_ordinal h hb.valid hc hh d st k1 k3 hd hd' hs hl hk x' y' h2 (h3 ▸ hn) (h3 ▸ hov) htx' hty']
  refine within_of hb ?_
  have key := rb_te (l := l) (k := k) (s := s) (ordPatterns x d s) (ordPatterns y d s) (ordPatterns x' d s) (ordPatterns y' d s)
    (by rw [rb_patterns_len, rb_patterns_len, h1]) (by rw [rb_patterns_len, rb_patterns_len, h2]) (by rw [rb_patterns_len, rb_patterns_len, h3])
    hs (by rw [rb_patterns_len]; omega)
  rw [rb_patterns_len, rb_patterns_len, ← h1, ← h2] at key
  have p1 := rb_patterns (d := d) (s := s) x x' h3 (by omega)
  have p2 := rb_patterns (d := d) (s := s) y y' (by omega) (by omega)
  have p1' : (changed (ordPatterns x d s) (ordPatterns x' d s) : ℝ) ≤ d * changed x x' := by exact_mod_cast p1
  have p2' : (changed (ordPatterns y d s) (ordPatterns y' d s) : ℝ) ≤ d * changed y y' := by exact_mod_cast p2
  have hL : 0 ≤ (1 + Real.log R) / R := by
    have := Real.log_natCast_nonneg R
    positivity
  refine key.trans (mul_le_mul_of_nonneg_right ?_ hL)
  have q1 : (l : ℝ) * changed (ordPatterns x d s) (ordPatterns x' d s) ≤ l * (d * changed x x') := by gcongr
  have q2 : ((k : ℝ) + 1) * changed (ordPatterns y d s) (ordPatterns y' d s) ≤ (k + 1) * (d * changed y y') := by gcongr
  nlinarith

end Verif
