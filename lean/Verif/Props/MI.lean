import Verif.Model.MI
import Verif.Lemmas.Cond
import Verif.Props.Joint

/-! # Properties C11–C15 : discrete mutual information -/

namespace Verif

open Spec

theorem miInit_ok {α : Type} {data : List (List α)} {N : Nat} (h2 : 2 ≤ data.length)
    (hl : ∀ c ∈ data, c.length = N) : miInit data (some 0) = .ok data := by
  have hne : data ≠ [] := by rintro rfl; simp at h2
  have h0 : (data.headD []).length = N := by
    cases data with
    | nil => exact absurd rfl hne
    | cons c cs => exact hl c (by simp)
  have hall : data.all (fun v => decide (v.length = (data.headD []).length)) = true := by
    rw [List.all_eq_true]; intro c hc; rw [h0, hl c hc]; simp
  unfold miInit
  rw [if_neg (by omega), if_neg (by simp), if_neg (by rw [hall]; simp)]
  simp

theorem discreteMI_pair {xs ys : List Int} (h : xs.length = ys.length) (b : Base) (mm : Bool) :
    discreteMI (.all1D [xs, ys]) (some 0) b mm =
      mi2dInt (logBase b) xs ys (if mm then some b else none) := by
  have := miInit_ok (data := [xs, ys]) (N := xs.length) (by simp) (by simp [h])
  simp only [discreteMI, this, bind, Except.bind, miGlobal]

theorem discreteMI_many {data : List (List Int)} {N : Nat} (h3 : 3 ≤ data.length)
    (hl : ∀ c ∈ data, c.length = N) (b : Base) (mm : Bool) :
    discreteMI (.all1D data) (some 0) b mm =
      miNdInt (logBase b) data (if mm then some b else none) := by
  have := miInit_ok (data := data) (N := N) (by omega) hl
  simp only [discreteMI, this, bind, Except.bind, miGlobal]
  match data, h3 with
  | x :: y :: z :: r, _ => rfl

theorem discreteMI_std {xs ys : List Int} (h : xs.length = ys.length) (hne : xs ≠ [])
    (hov : xs.length < 2 ^ 32) {b : Base} (hb : b.Std) :
    discreteMI (.all1D [xs, ys]) (some 0) b = .ok (Spec.mi xs ys / b.ln) := by
  rw [discreteMI_pair h]
  refine mi2dInt_std xs ys h hne ?_ hb
  have : xs.length ^ 2 < (2 ^ 32) ^ 2 := Nat.pow_lt_pow_left hov (by norm_num)
  simpa [← pow_mul] using this

/-- **C11** For two aligned discrete variables (fewer than 2³² samples) the returned value is the
textbook mutual information `Σ p(x,y) log (p(x,y)/(p(x)p(y)))` of the empirical distribution, in units
of the base — whatever the early return and the clip at zero do. -/
theorem C11_mi_is_textbook (xs ys : List Int) (h : xs.length = ys.length) (hne : xs ≠ [])
    (hov : xs.length < 2 ^ 32) (b : Base) (hb : b.Std) :
    discreteMI (.all1D [xs, ys]) (some 0) b = .ok (Spec.mi xs ys / b.ln) :=
  discreteMI_std h hne hov hb

example := C11_mi_is_textbook [5, 7, 5, 2] [0, 0, 1, 1] rfl (by decide) (by decide) (.num 2) (by norm_num [Base.Std])

/-- **C11** `I(X;Y) = H(X) + H(Y) − H(X,Y)` between the library's own entropies, and `I ≥ 0`. -/
theorem C11_mi_eq_entropy_combination (xs ys : List Int) (h : xs.length = ys.length) (hne : xs ≠ [])
    (hov : xs.length < 2 ^ 32) (b : Base) (hb : b.Std) :
    ∃ I HX HY HXY, discreteMI (.all1D [xs, ys]) (some 0) b = .ok I ∧
      discreteEntropy [.arr1 xs] b = .ok HX ∧ discreteEntropy [.arr1 ys] b = .ok HY ∧
      discreteEntropy [.tup [xs, ys]] b = .ok HXY ∧ I = HX + HY - HXY ∧ 0 ≤ I := by
  have hy : ys ≠ [] := by rintro rfl; simp at h; exact hne h
  refine ⟨_, _, _, _, discreteMI_std h hne hov hb, discreteEntropy_arr1 hne hb.valid,
    discreteEntropy_arr1 hy hb.valid,
    jointEntropy_ok (n := xs.length) (List.length_pos_iff.2 hne) (by simp) (by simp [h]) hb.valid,
    ?_, div_nonneg (mi_nonneg xs ys h) hb.ln_pos.le⟩
  rw [← tc_pair xs ys h, Spec.totalCorrelation]
  simp only [List.map_cons, List.map_nil, List.sum_cons, List.sum_nil, add_zero]
  ring

example := C11_mi_eq_entropy_combination [5, 7, 5, 2] [0, 0, 1, 1] rfl (by decide) (by decide) (.num 2) (by norm_num [Base.Std])

/-- **C11** (limit of the claim) with a base strictly between 0 and 1, where the plug-in combination
is ≤ 0, the clip makes the library return exactly 0 for two variables. -/
theorem C11_small_base_clips_to_zero (xs ys : List Int) (h : xs.length = ys.length) (hne : xs ≠ [])
    (hov : xs.length < 2 ^ 32) (b : ℝ) (h0 : 0 < b) (h1 : b < 1) :
    discreteMI (.all1D [xs, ys]) (some 0) (.num b) = .ok 0 := by
  have hov' : xs.length ^ 2 < 2 ^ 64 := by
    have : xs.length ^ 2 < (2 ^ 32) ^ 2 := Nat.pow_lt_pow_left hov (by norm_num)
    simpa [← pow_mul] using this
  rw [discreteMI_pair h, mi2dInt_ok xs ys h hne hov' (b := .num b) ⟨h0, h1.ne⟩]
  split
  · rfl
  · have : Spec.mi xs ys / Base.ln (.num b) ≤ 0 :=
      div_nonpos_of_nonneg_of_nonpos (mi_nonneg xs ys h) (Real.log_nonpos h0.le h1.le)
    simp [addCorr, max_eq_right this]

example : ([0, 1, 1, 0] : List Int).length = ([5, 5, 7, 7] : List Int).length ∧
    ([0, 1, 1, 0] : List Int) ≠ [] ∧ ([0, 1, 1, 0] : List Int).length < 2 ^ 32 := by decide

/-- **C12** symmetry -/
theorem C12_mi_symm (xs ys : List Int) (h : xs.length = ys.length) (hne : xs ≠ [])
    (hov : xs.length < 2 ^ 32) (b : Base) (hb : b.Std) :
    discreteMI (.all1D [xs, ys]) (some 0) b = discreteMI (.all1D [ys, xs]) (some 0) b := by
  have hy : ys ≠ [] := by rintro rfl; simp at h; exact hne h
  rw [discreteMI_std h hne hov hb, discreteMI_std h.symm hy (h ▸ hov) hb, mi_comm xs ys h]

example := C12_mi_symm [5, 7, 5, 2] [0, 0, 1, 1] rfl (by decide) (by decide) (.num 2) (by norm_num [Base.Std])

/-- **C12** mutual information never exceeds either marginal entropy -/
theorem C12_mi_le_entropies (xs ys : List Int) (h : xs.length = ys.length) (hne : xs ≠ [])
    (hov : xs.length < 2 ^ 32) (b : Base) (hb : b.Std) :
    ∃ I HX HY, discreteMI (.all1D [xs, ys]) (some 0) b = .ok I ∧
      discreteEntropy [.arr1 xs] b = .ok HX ∧ discreteEntropy [.arr1 ys] b = .ok HY ∧
      I ≤ HX ∧ I ≤ HY := by
  have hy : ys ≠ [] := by rintro rfl; simp at h; exact hne h
  refine ⟨_, _, _, discreteMI_std h hne hov hb, discreteEntropy_arr1 hne hb.valid,
    discreteEntropy_arr1 hy hb.valid, div_le_div_of_nonneg_right (mi_le_left xs ys h) hb.ln_pos.le, ?_⟩
  rw [mi_comm xs ys h]
  exact div_le_div_of_nonneg_right (mi_le_left ys xs h.symm) hb.ln_pos.le

example := C12_mi_le_entropies [5, 7, 5, 2] [0, 0, 1, 1] rfl (by decide) (by decide) (.num 2) (by norm_num [Base.Std])

/-- **C12** if the second variable is an injective function of the first, `I(X; f(X)) = H(X)`;
in particular `I(X; X) = H(X)` -/
theorem C12_mi_of_injective_image (xs : List Int) (hne : xs ≠ []) (hov : xs.length < 2 ^ 32)
    (f : Int → Int) (hf : ∀ x ∈ xs, ∀ y ∈ xs, f x = f y → x = y) (b : Base) (hb : b.Std) :
    discreteMI (.all1D [xs, xs.map f]) (some 0) b = discreteEntropy [.arr1 xs] b := by
  rw [discreteMI_std (by simp) hne hov hb, discreteEntropy_arr1 hne hb.valid]
  have k := mi_map xs id f
  rw [List.map_id] at k
  rw [k, entropy_map_congr xs (fun w => (id w, f w)) id
    (fun u _ v _ => ⟨fun h => (Prod.mk.inj h).1, fun h => by simp only [id] at h; rw [h]⟩),
    List.map_id, entropy_map_congr xs f id (fun u hu v hv =>
      ⟨hf u hu v hv, fun h => by simp only [id] at h; rw [h]⟩), List.map_id]
  congr 2; ring

example := C12_mi_of_injective_image [5, 7, 5, 2] (by decide) (by decide) (fun x => 3 * x - 1) (by decide) (.num 2) (by norm_num [Base.Std])

/-- **C12** injective relabelling of both variables does not change the value -/
theorem C12_mi_relabel (xs ys : List Int) (h : xs.length = ys.length) (hne : xs ≠ [])
    (hov : xs.length < 2 ^ 32) (f g : Int → Int)
    (hf : ∀ x ∈ xs, ∀ y ∈ xs, f x = f y → x = y) (hg : ∀ x ∈ ys, ∀ y ∈ ys, g x = g y → x = y)
    (b : Base) (hb : b.Std) :
    discreteMI (.all1D [xs.map f, ys.map g]) (some 0) b = discreteMI (.all1D [xs, ys]) (some 0) b := by
  rw [discreteMI_std (by simpa using h) (by simpa using hne) (by simpa using hov) hb,
    discreteMI_std h hne hov hb]
  have e1 : xs.map f = (xs.zip ys).map (fun w => f w.1) := by
    conv_lhs => rw [← map_fst_zip' xs ys h, List.map_map]
    rfl
  have e2 : ys.map g = (xs.zip ys).map (fun w => g w.2) := by
    conv_lhs => rw [← map_snd_zip' xs ys h, List.map_map]
    rfl
  have hm := fun (u : Int × Int) (hu : u ∈ xs.zip ys) => List.of_mem_zip (a := u.1) (b := u.2) hu
  have k1 : entropy ((xs.zip ys).map (fun w => f w.1)) = entropy xs := by
    rw [entropy_map_congr (xs.zip ys) (fun w => f w.1) Prod.fst (fun u hu v hv =>
      ⟨hf _ (hm u hu).1 _ (hm v hv).1, fun h => by rw [h]⟩), map_fst_zip' xs ys h]
  have k2 : entropy ((xs.zip ys).map (fun w => g w.2)) = entropy ys := by
    rw [entropy_map_congr (xs.zip ys) (fun w => g w.2) Prod.snd (fun u hu v hv =>
      ⟨hg _ (hm u hu).2 _ (hm v hv).2, fun h => by rw [h]⟩), map_snd_zip' xs ys h]
  have k3 : entropy ((xs.zip ys).map (fun w => (f w.1, g w.2))) = entropy (xs.zip ys) := by
    rw [entropy_map_congr (xs.zip ys) (fun w => (f w.1, g w.2)) id (fun u hu v hv =>
      ⟨fun h => Prod.ext (hf _ (hm u hu).1 _ (hm v hv).1 (Prod.mk.inj h).1)
        (hg _ (hm u hu).2 _ (hm v hv).2 (Prod.mk.inj h).2), fun h => by
          simp only [id] at h; rw [h]⟩), List.map_id]
  rw [e1, e2, mi_map, k1, k2, k3, mi_eq_entropies xs ys h]

example := C12_mi_relabel [5, 7, 5, 2] [0, 0, 1, 1] rfl (by decide) (by decide) (fun x => 3 * x - 1) (fun y => 1 - y) (by decide) (by decide) (.num 2) (by norm_num [Base.Std])

/-- **C12** the value is zero exactly when the two variables are empirically independent -/
theorem C12_mi_zero_iff_independent (xs ys : List Int) (h : xs.length = ys.length) (hne : xs ≠ [])
    (hov : xs.length < 2 ^ 32) (b : Base) (hb : b.Std) :
    discreteMI (.all1D [xs, ys]) (some 0) b = .ok 0 ↔
      ∀ x ∈ xs, ∀ y ∈ ys, Spec.freq (xs.zip ys) (x, y) = Spec.freq xs x * Spec.freq ys y := by
  rw [discreteMI_std h hne hov hb, ← mi_eq_zero_iff xs ys h, Except.ok.injEq, div_eq_zero_iff,
    or_iff_left hb.ln_pos.ne']

example : ∀ x ∈ ([3, 4, 3] : List Int), ∀ y ∈ ([3, 4, 3] : List Int),
    (fun v : Int => 10 - v) x = (fun v => 10 - v) y → x = y := by decide

theorem pow_bound {N n : Nat} (hN : 0 < N) (h2 : 2 ≤ n) (hov : N ^ n < 2 ^ 64) : N ^ 2 < 2 ^ 64 :=
  lt_of_le_of_lt (Nat.pow_le_pow_right hN h2) hov

/-- products of marginal counts are below `N ^ n` -/
theorem prod_cnt_lt {α : Type} [LinearOrder α] [Inhabited α] {data : List (List α)} {N : Nat}
    (hl : ∀ c ∈ data, c.length = N) (hov : N ^ data.length < 2 ^ 64) (t : Nat) :
    (data.map (fun c => cnt c (c.getD t default))).prod < 2 ^ 64 := by
  refine lt_of_le_of_lt (prod_le_pow _ N ?_) (by rw [List.length_map]; exact hov)
  intro x hx
  obtain ⟨c, hc, rfl⟩ := List.mem_map.1 hx
  exact (cnt_le_length _ _).trans (hl c hc).le

theorem unique_ne_one {α : Type} [LinearOrder α] {c : List α} (h : ¬ ∀ x ∈ c, ∀ y ∈ c, x = y) :
    (npUnique c).length ≠ 1 := fun h1 => h (npUnique_length_eq_one h1)

/-- **C13** (constant variables are excluded, for them the claim is false: see `C13_constant_variable_violates` and the
complete description `C13_total_correlation_iff`) For `n ≥ 2` variables none of which is constant and `N^n < 2^64`,
the value is the total correlation `Σ H(X_i) − H(X_1,…,X_n)`. -/
theorem C13_mi_is_total_correlation (data : List (List Int)) (N : Nat) (hN : 0 < N)
    (h2 : 2 ≤ data.length) (hl : ∀ c ∈ data, c.length = N)
    (hc : ∀ c ∈ data, ¬ ∀ x ∈ c, ∀ y ∈ c, x = y) (hov : N ^ data.length < 2 ^ 64)
    (b : Base) (hb : b.Std) :
    discreteMI (.all1D data) (some 0) b = .ok (Spec.totalCorrelation N data / b.ln) := by
  match data, h2 with
  | [xs, ys], _ =>
    have hx : xs.length = N := hl xs (by simp)
    have hxy : xs.length = ys.length := by rw [hx, hl ys (by simp)]
    subst hx
    rw [discreteMI_pair hxy, tc_pair xs ys hxy]
    exact mi2dInt_std xs ys hxy (List.length_pos_iff.1 hN) (pow_bound hN (by simp) hov) hb
  | x :: y :: z :: r, _ =>
    rw [discreteMI_many (by simp) hl, miNdInt_ok _ N hN (by simp) hl
      (fun c hcm => unique_ne_one (hc c hcm)) (fun t _ => prod_cnt_lt hl hov t) hb.valid]
    simp [addCorr]

example : ∃ data : List (List Int), 3 ≤ data.length ∧ (∀ c ∈ data, c.length = 2) ∧
    (∀ c ∈ data, ¬ ∀ x ∈ c, ∀ y ∈ c, x = y) ∧ 2 ^ data.length < 2 ^ 64 :=
  ⟨[[0, 1], [0, 1], [1, 0]], by decide, by decide, by decide, by decide⟩

/-- a constant variable makes the sparse implementation return zero -/
theorem miNdInt_const {α : Type} [LinearOrder α] {data : List (List α)} {N : Nat} (hN : 0 < N)
    (hl : ∀ c ∈ data, c.length = N) {c : List α} (hcm : c ∈ data) (hc : ∀ x ∈ c, ∀ y ∈ c, x = y)
    (lg : ℝ → Except Exc ℝ) (mm : Option Base) : miNdInt lg data mm = .ok 0 := by
  unfold miNdInt
  simp only []
  rw [if_pos]
  simp only [miMargins, List.any_map, List.any_eq_true, List.mem_range, Function.comp,
    Coo.margin_length, decide_eq_true_eq]
  obtain ⟨i, hi, rfl⟩ := List.mem_iff_getElem.1 hcm
  refine ⟨i, hi, ?_⟩
  rw [getD_map_of_lt _ _ _ _ hi]
  have hne : data[i] ≠ [] := by
    intro h0
    have := hl _ hcm
    rw [h0] at this; simp at this; omega
  exact npUnique_const hne hc

/-- **C13** (violation) with three or more variables one of which is constant the library returns 0,
whatever the dependence among the others. -/
theorem C13_constant_variable_returns_zero (data : List (List Int)) (N : Nat) (hN : 0 < N)
    (h3 : 3 ≤ data.length) (hl : ∀ c ∈ data, c.length = N)
    (hc : ∃ c ∈ data, ∀ x ∈ c, ∀ y ∈ c, x = y) (b : Base) :
    discreteMI (.all1D data) (some 0) b = .ok 0 := by
  obtain ⟨c, hcm, hc⟩ := hc
  rw [discreteMI_many h3 hl]
  exact miNdInt_const hN hl hcm hc _ _

example := C13_constant_variable_returns_zero [[5, 7, 5], [0, 0, 1], [4, 4, 4]] 3 (by decide) (by decide) (by decide) ⟨[4, 4, 4], (by decide), (by decide)⟩ .e

/-- **C13** (violation, witness) two identical fair bits and a constant: the total correlation is
`log 2` nats, the library returns 0. -/
theorem C13_constant_variable_violates :
    ∃ data : List (List Int), (∀ c ∈ data, c.length = 2) ∧ 3 ≤ data.length ∧
      discreteMI (.all1D data) (some 0) .e = .ok 0 ∧ Spec.totalCorrelation 2 data = Real.log 2 := by
  refine ⟨[[0, 1], [0, 1], [7, 7]], by decide, by decide,
    C13_constant_variable_returns_zero _ 2 (by norm_num) (by decide) (by decide)
      ⟨[7, 7], by decide, by decide⟩ _, ?_⟩
  have e1 : entropy ([0, 1] : List Int) = Real.log 2 := by
    rw [(entropy_eq_log_card_iff ([0, 1] : List Int) (by simp)).2 (by decide)]
    norm_num
  have e2 : entropy ([7, 7] : List Int) = 0 := (entropy_eq_zero_iff _).2 (by decide)
  have e3 : entropy (Spec.rows 2 ([[0, 1], [0, 1], [7, 7]] : List (List Int))) = Real.log 2 := by
    have : Spec.rows 2 ([[0, 1], [0, 1], [7, 7]] : List (List Int)) = [[0, 0, 7], [1, 1, 7]] := by decide
    rw [this, (entropy_eq_log_card_iff ([[0, 0, 7], [1, 1, 7]] : List (List Int)) (by simp)).2 (by decide)]
    norm_num
  rw [Spec.totalCorrelation, e3]
  simp [e1, e2]

/-- **C14** As long as `N^n < 2^64` the `uint64` product of the marginal counts of any sample is the
exact product, for every choice of `n` counts of at most `N`. -/
theorem C14_no_wrap (l : List Nat) (N : Nat) (h : ∀ x ∈ l, x ≤ N) (hov : N ^ l.length < 2 ^ 64) :
    prodU64 l = l.prod :=
  prodU64_eq_prod (lt_of_le_of_lt (prod_le_pow l N h) hov)

example : ∀ x ∈ [3, 5, 2], x ≤ 5 := by decide

/-- an element failing with `e`, all others succeeding or failing with `e` -/
theorem mapM_error {ε α β : Type} {f : α → Except ε β} {e : ε} (l : List α)
    (h : ∀ a ∈ l, (∃ v, f a = .ok v) ∨ f a = .error e) (hex : ∃ a ∈ l, f a = .error e) :
    l.mapM f = .error e := by
  induction l with
  | nil => obtain ⟨a, ha, _⟩ := hex; simp at ha
  | cons a l ih =>
    rw [List.mapM_cons]
    rcases h a (by simp) with ⟨v, hv⟩ | he
    · rw [hv]
      obtain ⟨c, hc, hce⟩ := hex
      rcases List.mem_cons.1 hc with rfl | hc'
      · rw [hv] at hce; cases hce
      · rw [ih (fun c hc => h c (by simp [hc])) ⟨c, hc', hce⟩]; rfl
    · rw [he]; rfl

/-- **C14** (violation) if for some sample the exact product of its marginal counts is a multiple of
`2^64` (possible only when `N^n ≥ 2^64`), the `uint64` product is 0 and the result is not finite,
although the total correlation is a finite number. -/
theorem C14_wrap_not_finite (data : List (List Int)) (N : Nat) (hN : 0 < N)
    (h3 : 3 ≤ data.length) (hl : ∀ c ∈ data, c.length = N)
    (hc : ∀ c ∈ data, ¬ ∀ x ∈ c, ∀ y ∈ c, x = y)
    (t : Nat) (ht : t < N) (hw : 2 ^ 64 ∣ (data.map (fun c => cnt c (c.getD t default))).prod) :
    discreteMI (.all1D data) (some 0) .e = .error .nonFinite := by
  have hne : data ≠ [] := by rintro rfl; simp at h3
  have hN' : (0:ℝ) < N := by exact_mod_cast hN
  rw [discreteMI_many h3 hl]
  unfold miNdInt
  simp only []
  rw [if_neg]
  swap
  · simp only [miMargins, List.any_map, List.any_eq_true, List.mem_range, Function.comp, Coo.margin_length,
      decide_eq_true_eq, not_exists, not_and]
    intro i hi
    rw [getD_map_of_lt _ _ _ _ hi]
    exact unique_ne_one (hc _ (List.getElem_mem hi))
  have hrl : (indexRows data).length = N := by rw [indexRows_eq data N hne hl]; simp
  rw [Coo.total_ofRows, hrl]
  have key : ∀ e : List Nat × Nat, e ∈ (Coo.ofRows (indexRows data)).cells → (0:ℝ) < e.2 := by
    intro e he
    obtain ⟨h1, h2⟩ := Coo.mem_cells.1 he
    rw [h2]; exact_mod_cast cnt_pos_iff.2 h1
  rw [mapM_error (e := Exc.nonFinite)]
  · rfl
  · intro e he
    have hv := key e he
    simp only [logBase, npLog, hv, hN', if_true, bind, Except.bind, pure, Except.pure]
    split_ifs <;> simp
  · refine ⟨(data.map (fun c => npPos c (c.getD t default)),
      cnt (indexRows data) (data.map (fun c => npPos c (c.getD t default)))), ?_, ?_⟩
    · refine Coo.mem_cells.2 ⟨?_, rfl⟩
      rw [indexRows_eq data N hne hl]
      exact List.mem_map_of_mem (List.mem_range.2 ht)
    · have hv := key (data.map (fun c => npPos c (c.getD t default)),
        cnt (indexRows data) (data.map (fun c => npPos c (c.getD t default)))) (by
          refine Coo.mem_cells.2 ⟨?_, rfl⟩
          rw [indexRows_eq data N hne hl]
          exact List.mem_map_of_mem (List.mem_range.2 ht))
      simp only [] at hv ⊢
      rw [margins_zip data N hne hl t ht, prodU64_eq, Nat.mod_eq_zero_of_dvd hw]
      simp only [logBase, npLog, hv, hN', if_true, bind, Except.bind, Nat.cast_zero, lt_irrefl, if_false]

theorem wrap_case (n : Nat) (hn : 0 < n) (h : 2 ^ 64 ∣ n ^ 3) :
    discreteMI (.all1D (List.replicate 3 (List.replicate n 0 ++ [1]))) (some 0) .e = .error .nonFinite := by
  have h0 : (0 : Int) ∈ List.replicate n (0 : Int) ++ [1] := by simp [hn.ne']
  refine C14_wrap_not_finite _ (n + 1) (by omega) (by simp) ?_ ?_ 0 (by omega) ?_
  · intro c hc
    rw [List.eq_of_mem_replicate hc]
    simp
  · intro c hc
    rw [List.eq_of_mem_replicate hc]
    exact fun h => absurd (h 0 h0 1 (by simp)) (by norm_num)
  · have e : (List.replicate n (0 : Int) ++ [1]).getD 0 default = 0 := by
      cases n with
      | zero => omega
      | succ m => simp [List.replicate_succ]
    have hc : cnt (List.replicate n (0 : Int) ++ [1]) 0 = n := by
      rw [cnt, List.countP_append, List.countP_eq_length.2 (by intro a ha; simp [List.eq_of_mem_replicate ha])]
      simp
    rw [List.map_replicate, e, hc, List.prod_replicate]
    exact h

/-- three variables of `2^22` zeros and a one: `C14_wrap_not_finite` applies -/
example := wrap_case (2 ^ 22) (by norm_num) ⟨4, by norm_num⟩

/-- **C14** (violation, witness) 64 identical copies of `[0, 0, 1, 1]`: every marginal count is 2, the
product `2^64` wraps to 0. -/
theorem C14_wrap_witness :
    discreteMI (.all1D (List.replicate 64 [0, 0, 1, 1])) (some 0) .e = .error .nonFinite := by
  refine C14_wrap_not_finite _ 4 (by norm_num) (by simp) ?_ ?_ 0 (by norm_num) ?_
  · intro c hc; rw [List.eq_of_mem_replicate hc]; rfl
  · intro c hc; rw [List.eq_of_mem_replicate hc]; decide
  · rw [List.map_replicate, List.prod_replicate]
    have : cnt ([0, 0, 1, 1] : List Int) (([0, 0, 1, 1] : List Int).getD 0 default) = 2 := by decide
    rw [this]

/-- local MI in the constant case -/
theorem miLocal_const {α : Type} [LinearOrder α] {data : List (List α)} {N : Nat} (hN : 0 < N)
    (hl : ∀ c ∈ data, c.length = N) {c : List α} (hcm : c ∈ data) (hc : ∀ x ∈ c, ∀ y ∈ c, x = y)
    (lg : ℝ → Except Exc ℝ) (mm : Option Base) :
    miLocal lg data mm = .ok (List.replicate N 0) := by
  have hne : data ≠ [] := List.ne_nil_of_mem hcm
  unfold miLocal
  simp only []
  rw [if_pos, head_len hne hl]
  simp only [miMargins, List.any_map, List.any_eq_true, List.mem_range, Function.comp,
    Coo.margin_length, decide_eq_true_eq]
  obtain ⟨i, hi, rfl⟩ := List.mem_iff_getElem.1 hcm
  refine ⟨i, hi, ?_⟩
  rw [getD_map_of_lt _ _ _ _ hi]
  have hne : data[i] ≠ [] := by
    intro h0
    have := hl _ hcm
    rw [h0] at this; simp at this; omega
  exact npUnique_const hne hc

theorem mmFlag_valid {b : Base} (hb : b.Valid) (mm : Bool) :
    ∀ b' ∈ (if mm then some b else none : Option Base), b'.Valid := by
  cases mm <;> simp [hb]

/-- **C15** Local mutual information: one value per sample, averaging to the global value, for any
number of variables, constant or not, plain or Miller–Madow. -/
theorem C15_local_mi_mean (data : List (List Int)) (N : Nat) (hN : 0 < N)
    (h2 : 2 ≤ data.length) (hl : ∀ c ∈ data, c.length = N) (hov : N ^ data.length < 2 ^ 64)
    (b : Base) (hb : b.Std) (mm : Bool) :
    ∃ g ls, discreteMI (.all1D data) (some 0) b mm = .ok g ∧
      discreteMILocal data (some 0) b mm = .ok ls ∧ ls.length = N ∧ Spec.mean ls = g := by
  have hne : data ≠ [] := by rintro rfl; simp at h2
  have hN' : (0:ℝ) < N := by exact_mod_cast hN
  have hloc : discreteMILocal data (some 0) b mm =
      miLocal (logBase b) data (if mm then some b else none) := by
    simp only [discreteMILocal, miInit_ok h2 hl, bind, Except.bind]
  by_cases hconst : ∃ c ∈ data, ∀ x ∈ c, ∀ y ∈ c, x = y
  · obtain ⟨c, hcm, hc⟩ := hconst
    refine ⟨0, List.replicate N 0, ?_, ?_, by simp, by simp [Spec.mean]⟩
    · match data, h2 with
      | [xs, ys], _ =>
        have hx : xs.length = N := hl xs (by simp)
        have hxy : xs.length = ys.length := by rw [hx, hl ys (by simp)]
        have hxne : xs ≠ [] := List.length_pos_iff.1 (by omega)
        have hyne : ys ≠ [] := List.length_pos_iff.1 (by omega)
        subst hx
        rw [discreteMI_pair hxy, mi2dInt_ok xs ys hxy hxne (pow_bound hN (by simp) hov) hb.valid,
          if_pos]
        rcases List.mem_cons.1 hcm with rfl | h'
        · exact Or.inl (npUnique_const hxne hc)
        · rw [List.mem_singleton.1 h'] at hc
          exact Or.inr (npUnique_const hyne hc)
      | x :: y :: z :: r, _ =>
        exact (discreteMI_many (by simp) hl b mm).trans (miNdInt_const hN hl hcm hc _ _)
    · rw [hloc]; exact miLocal_const hN hl hcm hc _ _
  · push Not at hconst
    have hu : ∀ c ∈ data, (npUnique c).length ≠ 1 := fun c hcm => unique_ne_one (by
      obtain ⟨x, hx, y, hy, hxy⟩ := hconst c hcm
      exact fun h => hxy (h x hx y hy))
    obtain ⟨corr, hcorr⟩ : ∃ corr, ∀ v, addCorr (if mm then some b else none)
        (fun base => millerMadowCorr (data.map (fun v => (npUnique v).length))
          (Spec.rows N data).toFinset.card N base none) v = .ok (v + corr) :=
      ⟨_, fun v => addCorr_ok _ (mmFlag_valid hb.valid mm) _ _ _ _ v hN.ne'⟩
    refine ⟨Spec.totalCorrelation N data / b.ln + corr, _, ?_,
      hloc.trans (miLocal_ok data N hN hne hl hu hb.valid _ corr hcorr), by simp, ?_⟩
    · match data, h2 with
      | [xs, ys], _ =>
        have hx : xs.length = N := hl xs (by simp)
        have hxy : xs.length = ys.length := by rw [hx, hl ys (by simp)]
        have hxne : xs ≠ [] := List.length_pos_iff.1 (by omega)
        subst hx
        rw [discreteMI_pair hxy, mi2dInt_ok xs ys hxy hxne (pow_bound hN (by simp) hov) hb.valid,
          if_neg (by have h1 := hu xs (by simp); have h2 := hu ys (by simp); tauto),
          max_eq_left (div_nonneg (mi_nonneg xs ys hxy) hb.ln_pos.le), ← tc_pair xs ys hxy, ← hcorr,
          card_rows_pair xs ys hxy]
        rfl
      | x :: y :: z :: r, _ =>
        rw [discreteMI_many (by simp) hl, miNdInt_ok _ N hN (by simp) hl hu
          (fun t _ => prod_cnt_lt hl hov t) hb.valid]
        exact hcorr _
    · rw [Spec.mean, List.length_map, List.length_range, sum_map_add', sum_map_div',
        tc_eq_mean data N hN hl]
      simp only [List.map_const', List.length_range, List.sum_replicate, nsmul_eq_mul]
      field_simp

example : ∃ data : List (List Int), 2 ≤ data.length ∧ (∀ c ∈ data, c.length = 3) ∧
    3 ^ data.length < 2 ^ 64 := ⟨[[0, 1, 1], [4, 4, 4], [1, 2, 3]], by decide, by decide, by decide⟩

end Verif
