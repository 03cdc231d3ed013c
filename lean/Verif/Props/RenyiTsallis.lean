import Verif.Lemmas.ExpFamily
import Verif.Lemmas.Samples

/-!
# C64: Rényi and Tsallis entropy from nearest-neighbour distances

`expEntropy renyiVal args k order b` is `entropy(*args, approach="renyi", k=k, alpha=order, base=b)` and
`expEntropy tsallisVal args k order b` is `entropy(*args, approach="tsallis", k=k, q=order, base=b)`.
-/

namespace Verif

open Spec

/-- In the sample `0, 3` each point has its nearest neighbour at distance 3. -/
theorem zeroThree_kth : ∀ t < 2, IsKthDist 2 1 t (dists (some 2) (KVar.samples (.one [0, 3])) t) 3 := fun t ht => by
  have h := two_isKth (dists (some 2) (KVar.samples (.one [0, 3])) t) ht
  have e : dists (some 2) (KVar.samples (.one [0, 3])) t (1 - t) = 3 := by
    interval_cases t
    · exact (line_distance 0 3).trans (by norm_num)
    · exact (line_distance 3 0).trans (by norm_num)
  rwa [e] at h

theorem renyiVal_ok {k : Nat} (hk : 0 < k) {q : ℝ} (hq : q < k + 1) {L : List ℝ}
    (hL : ∀ r ∈ L, 0 ≤ r) (hex : ∃ r ∈ L, r ≠ 0) {N : ℝ} (hN : 0 < N) {d : Nat} (hd : 0 < d) {b : Base} (hb : b.Valid) (n : Nat) :
    renyiVal k q ⟨Real.pi ^ ((d : ℝ) / 2) / Real.Gamma ((d : ℝ) / 2 + 1), L, n, d⟩ N b = .ok (renyiNN N k d q L / b.ln) := by
  have hne : L ≠ [] := by rintro rfl; obtain ⟨r, hr, _⟩ := hex; simp at hr
  have hpos := lpsI_pos (d := d) hk hq hN hd hL hex
  unfold renyiVal renyiNN
  by_cases h1 : q = 1
  · rw [if_neg (not_not.2 h1), if_pos h1, expFamilyI1_ok hk hne hL hN hd hb]
  · rw [if_pos h1, if_neg h1, expFamilyIq_ok hk hq hne hL hN.le hd]
    simp only [bind, Except.bind]
    rw [if_neg hpos.ne', logBase_ok hb hpos]
    simp only [Except.map]
    rw [div_right_comm]

theorem tsallisVal_ok {k : Nat} (hk : 0 < k) {q : ℝ} (hq1 : q ≠ 1) (hq : q < k + 1) {L : List ℝ}
    (hL : ∀ r ∈ L, 0 ≤ r) (hex : ∃ r ∈ L, r ≠ 0) {N : ℝ} (hN : 0 < N) {d : Nat} (hd : 0 < d) (b : Base) (n : Nat) :
    tsallisVal k q ⟨Real.pi ^ ((d : ℝ) / 2) / Real.Gamma ((d : ℝ) / 2 + 1), L, n, d⟩ N b = .ok (tsallisNN N k d q L) := by
  have hne : L ≠ [] := by rintro rfl; obtain ⟨r, hr, _⟩ := hex; simp at hr
  have hpos := lpsI_pos (d := d) hk hq hN hd hL hex
  unfold tsallisVal tsallisNN
  rw [if_pos hq1, expFamilyIq_ok hk hq hne hL hN.le hd]
  simp only [bind, Except.bind]
  rw [if_neg hpos.ne']

theorem knnParts_arr {v : KVar} {n : Nat} (H : v.Sample n) {k : Nat} (hk : 0 < k) (hkn : k < n) {ρ : Nat → ℝ}
    (hρ : ∀ t < n, IsKthDist n k t (dists (some 2) v.samples t) (ρ t)) :
    knnParts (assure2d v) k none =
      .ok ⟨Real.pi ^ ((v.dim : ℝ) / 2) / Real.Gamma ((v.dim : ℝ) / 2 + 1), (List.range n).map ρ, n, v.dim⟩ := by
  have hp : (PNorm.num 2).ok = true := by simp [PNorm.ok]
  have hl := (arr_aligned H.len H.wf).1
  unfold knnParts
  simp only [Option.getD_none]
  rw [if_neg (by simp), if_neg (by omega), if_neg (by omega)]
  congr 1
  simp only [KnnParts.mk.injEq]
  refine ⟨rfl, ?_, hl, rfl⟩
  conv_lhs => arg 2; rw [list_eq_range (assure2d v).rows [] hl]
  rw [List.map_map]
  refine List.map_congr_left fun t ht => ?_
  have ht' := List.mem_range.1 ht
  obtain ⟨e, h1, _, h3⟩ := kthDist_isKth (p := .num 2) hp hl H.wf ht' hk hkn
  have := isKthDist_unique h3 (hρ t ht')
  subst this
  simp only [Function.comp, h1, Option.getD_some]

theorem expInit_arr {v : KVar} {k : Nat} (hk : 0 < k) {order : PyArg} {q : ℝ} (ho : order.posNumber = some q) :
    expInit [.arr v] (.int k) order = .ok ([.arr v], k, q) := by
  simp only [expInit, ho, bind, Except.bind, PyArg.posInt, PyArg.val]
  simp [hk]

theorem expInit_two {v w : KVar} {k : Nat} (hk : 0 < k) {order : PyArg} {q : ℝ} (ho : order.posNumber = some q) :
    expInit [.arr v, .arr w] (.int k) order = .ok ([.arr v, .arr w], k, q) := by
  simp only [expInit, ho, bind, Except.bind, PyArg.posInt, PyArg.val]
  simp [hk]

theorem expEntropy_arr {val : Nat → ℝ → KnnParts → ℝ → Base → Except Exc ℝ} {v : KVar} {n : Nat} (H : v.Sample n) {k : Nat}
    (hk : 0 < k) (hkn : k < n) {order : PyArg} {q : ℝ} (ho : order.posNumber = some q) (b : Base) {ρ : Nat → ℝ}
    (hρ : ∀ t < n, IsKthDist n k t (dists (some 2) v.samples t) (ρ t)) :
    expEntropy val [.arr v] (.int k) order b =
      val k q ⟨Real.pi ^ ((v.dim : ℝ) / 2) / Real.Gamma ((v.dim : ℝ) / 2 + 1), (List.range n).map ρ, n, v.dim⟩ ((n : ℝ) - 1) b := by
  unfold expEntropy
  rw [expInit_arr hk ho]
  simp only [bind, Except.bind]
  rw [knnParts_arr H hk hkn hρ]

theorem kthDist_nonneg' {n k t : Nat} {X : List (List ℝ)} {p : Option ℝ} {ε : ℝ} (h : IsKthDist n k t (dists p X t) ε) : 0 ≤ ε := by
  obtain ⟨⟨s, _, _, rfl⟩, _⟩ := h
  exact distance_nonneg _ _ _

theorem rho_nonneg {v : KVar} {n k : Nat} {ρ : Nat → ℝ} (hρ : ∀ t < n, IsKthDist n k t (dists (some 2) v.samples t) (ρ t)) :
    ∀ r ∈ (List.range n).map ρ, 0 ≤ r := by
  intro r hr
  obtain ⟨t, ht, rfl⟩ := List.mem_map.1 hr
  exact kthDist_nonneg' (hρ t (List.mem_range.1 ht))

theorem pred_pos {n k : Nat} (hk : 0 < k) (hkn : k < n) : 0 < (n : ℝ) - 1 := by
  have : 1 < n := by omega
  have : (1 : ℝ) < n := by exact_mod_cast this
  linarith

/-- **C64** Rényi entropy of order `0 < q < k + 1` (including 1) of `n` samples, `1 ≤ k < n`, not all neighbour distances zero: the
Leonenko–Pronzato–Savani estimate. -/
theorem C64_renyi (v : KVar) (n : Nat) (H : v.Sample n) (k : Nat) (hk : 0 < k) (hkn : k < n) (order : PyArg) (q : ℝ)
    (ho : order.posNumber = some q) (hq : q < k + 1) (b : Base) (hb : b.Valid) (ρ : Nat → ℝ)
    (hρ : ∀ t < n, IsKthDist n k t (dists (some 2) v.samples t) (ρ t)) (hex : ∃ t < n, ρ t ≠ 0) :
    expEntropy renyiVal [.arr v] (.int k) order b = .ok (renyiNN (n - 1) k v.dim q ((List.range n).map ρ) / b.ln) := by
  rw [expEntropy_arr H hk hkn ho b hρ]
  obtain ⟨t, ht, h0⟩ := hex
  exact renyiVal_ok hk hq (rho_nonneg hρ) ⟨ρ t, List.mem_map.2 ⟨t, List.mem_range.2 ht, rfl⟩, h0⟩ (pred_pos hk hkn) H.dim hb n

example := C64_renyi (.one [0, 3]) 2 ⟨rfl, KVar.wf_one _, by decide⟩ 1 (by decide) (by decide) (.num (3 / 2)) (3 / 2) (by norm_num [PyArg.posNumber]) (by norm_num) .e trivial (fun _ => 3)
  zeroThree_kth ⟨0, by decide, by norm_num⟩

/-- **C64** Tsallis entropy of order `q ≠ 1`. -/
theorem C64_tsallis (v : KVar) (n : Nat) (H : v.Sample n) (k : Nat) (hk : 0 < k) (hkn : k < n) (order : PyArg) (q : ℝ)
    (ho : order.posNumber = some q) (hq1 : q ≠ 1) (hq : q < k + 1) (b : Base) (ρ : Nat → ℝ)
    (hρ : ∀ t < n, IsKthDist n k t (dists (some 2) v.samples t) (ρ t)) (hex : ∃ t < n, ρ t ≠ 0) :
    expEntropy tsallisVal [.arr v] (.int k) order b = .ok (tsallisNN (n - 1) k v.dim q ((List.range n).map ρ)) := by
  rw [expEntropy_arr H hk hkn ho b hρ]
  obtain ⟨t, ht, h0⟩ := hex
  exact tsallisVal_ok hk hq1 hq (rho_nonneg hρ) ⟨ρ t, List.mem_map.2 ⟨t, List.mem_range.2 ht, rfl⟩, h0⟩ (pred_pos hk hkn) H.dim b n

example := C64_tsallis (.one [0, 3]) 2 ⟨rfl, KVar.wf_one _, by decide⟩ 1 (by decide) (by decide) (.num (3 / 2)) (3 / 2) (by norm_num [PyArg.posNumber]) (by norm_num) (by norm_num) .e (fun _ => 3)
  zeroThree_kth ⟨0, by decide, by norm_num⟩

/-- For order one both are the same program. -/
theorem C64_tsallis_one (args : List KArg) (k order : PyArg) (ho : order.posNumber = some 1) (b : Base) :
    expEntropy tsallisVal args k order b = expEntropy renyiVal args k order b := by
  have key : ∀ i, expInit args k order = .ok i → i.2.2 = 1 := by
    intro i hi
    unfold expInit at hi
    simp only [bind, Except.bind, ho] at hi
    split at hi <;> (try split_ifs at hi) <;> cases hi <;> rfl
  have hv : ∀ k' parts n, tsallisVal k' 1 parts n b = renyiVal k' 1 parts n b := by
    intro k' parts n
    simp [tsallisVal, renyiVal]
  unfold expEntropy
  cases hi : expInit args k order with
  | error e => rfl
  | ok i =>
    simp only [bind, Except.bind]
    rw [key i hi]
    split <;> simp only [hv]

example := C64_tsallis_one [.arr (.one [0, 3])] (.int 1) (.num 1) (by norm_num [PyArg.posNumber]) .e

/-- Tsallis and Rényi entropy of the same order are related by `(1 − q) T = exp((1 − q) R) − 1` (`R` in nats). -/
theorem C64_tsallis_of_renyi (v : KVar) (n : Nat) (H : v.Sample n) (k : Nat) (hk : 0 < k) (hkn : k < n) (order : PyArg) (q : ℝ)
    (ho : order.posNumber = some q) (hq1 : q ≠ 1) (hq : q < k + 1) (ρ : Nat → ℝ)
    (hρ : ∀ t < n, IsKthDist n k t (dists (some 2) v.samples t) (ρ t)) (hex : ∃ t < n, ρ t ≠ 0) :
    ∃ R T, expEntropy renyiVal [.arr v] (.int k) order .e = .ok R ∧ expEntropy tsallisVal [.arr v] (.int k) order .e = .ok T ∧
      (1 - q) * T = Real.exp ((1 - q) * R) - 1 := by
  refine ⟨_, _, C64_renyi v n H k hk hkn order q ho hq .e (by simp [Base.Valid]) ρ hρ hex,
    C64_tsallis v n H k hk hkn order q ho hq1 hq .e ρ hρ hex, ?_⟩
  have hd : 1 - q ≠ 0 := fun h => hq1 (by linarith)
  have hd' : q - 1 ≠ 0 := fun h => hq1 (by linarith)
  obtain ⟨t, ht, h0⟩ := hex
  have hpos := lpsI_pos (q := q) (d := v.dim) hk hq (pred_pos hk hkn) H.dim (rho_nonneg hρ)
    ⟨ρ t, List.mem_map.2 ⟨t, List.mem_range.2 ht, rfl⟩, h0⟩
  unfold renyiNN tsallisNN
  rw [if_neg hq1]
  have e : (1 - q) * (Real.log (lpsI (n - 1) k v.dim q ((List.range n).map ρ)) / (1 - q) / Base.e.ln) =
      Real.log (lpsI (n - 1) k v.dim q ((List.range n).map ρ)) := by
    have : Base.e.ln = 1 := rfl
    rw [this]
    field_simp
  rw [e, Real.exp_log hpos]
  field_simp
  ring

example := C64_tsallis_of_renyi (.one [0, 3]) 2 ⟨rfl, KVar.wf_one _, by decide⟩ 1 (by decide) (by decide) (.num (3 / 2)) (3 / 2) (by norm_num [PyArg.posNumber]) (by norm_num) (by norm_num) (fun _ => 3)
  zeroThree_kth ⟨0, by decide, by norm_num⟩

/-- Order one is the Kozachenko–Leonenko entropy with the Euclidean norm, except that `ψ(n)` is replaced by `log(n − 1)`. -/
theorem C64_order_one (v : KVar) (n : Nat) (H : v.Sample n) (k : Nat) (hk : 0 < k) (hkn : k < n) (order : PyArg)
    (ho : order.posNumber = some 1) (b : Base) (hb : b.Valid)
    (hpos : ∀ t < n, ∀ ε, IsKthDist n k t (dists (some 2) v.samples t) ε → 0 < ε) :
    ∃ h, klEntropy [.arr v] ⟨.int k, 1, false, .num 2⟩ none none b = .ok h ∧
      expEntropy renyiVal [.arr v] (.int k) order b = .ok (h + (Real.log (n - 1) - psi n) / b.ln) := by
  have hp : (PNorm.num 2).ok = true := by simp [PNorm.ok]
  obtain ⟨ρ, hρ'⟩ := Sample.exists_kth (p := .num 2) H hp hk hkn
  have hρ : ∀ t < n, IsKthDist n k t (dists (some 2) v.samples t) (ρ t) := fun t ht => (hρ' t ht).2
  have h0 : ∀ t < n, 0 < ρ t := fun t ht => hpos t ht _ (hρ t ht)
  have hN := pred_pos hk hkn
  refine ⟨_, (C52_value_distinct v n H (.num 2) hp k hk hkn b hb ρ hρ h0).1, ?_⟩
  rw [C64_renyi v n H k hk hkn order 1 ho (by have : (0 : ℝ) < k := by exact_mod_cast hk
                                              linarith) b hb ρ hρ ⟨0, by omega, (h0 0 (by omega)).ne'⟩, ← add_div]
  congr 2
  unfold renyiNN lpsLog
  rw [if_pos rfl, List.map_map]
  have hn : (n : ℝ) ≠ 0 := by linarith
  have e : (List.range n).map ((fun ρ => if ρ = 0 then 0 else Real.log ((n - 1) * Real.exp (- psi k) * ballVolume v.dim (some 2) ρ)) ∘ ρ) =
      (List.range n).map (fun t => (Real.log (n - 1) - psi k) + Real.log (ballVolume v.dim (some 2) (ρ t))) := by
    refine List.map_congr_left fun t ht => ?_
    have ht0 := h0 t (List.mem_range.1 ht)
    have hv : 0 < ballVolume v.dim (some 2) (ρ t) := ballVolume_pos (p := .num 2) H.dim hp ht0
    simp only [Function.comp]
    rw [if_neg ht0.ne', Real.log_mul (by positivity) hv.ne', Real.log_mul hN.ne' (Real.exp_pos _).ne', Real.log_exp]
    ring
  rw [e]
  unfold mean
  rw [List.sum_map_add]
  simp only [List.length_map, List.length_range, List.map_const', List.sum_replicate, nsmul_eq_mul]
  have : (PNorm.num 2).order = some 2 := rfl
  rw [this]
  field_simp
  ring

example := C64_order_one (.one [0, 3]) 2 ⟨rfl, KVar.wf_one _, by decide⟩ 1 (by decide) (by decide) (.num 1) (by norm_num [PyArg.posNumber]) .e trivial
  (fun t ht ε h => by
    rw [two_kth ht h, ← two_kth ht (zeroThree_kth t ht)]; norm_num)

/-- All neighbour distances zero: both entropies are 0, whatever the order. -/
theorem C64_coinciding (v : KVar) (n : Nat) (H : v.Sample n) (k : Nat) (hk : 0 < k) (hkn : k < n) (order : PyArg) (q : ℝ)
    (ho : order.posNumber = some q) (hq : q < k + 1) (b : Base) (hb : b.Valid)
    (hz : ∀ t < n, IsKthDist n k t (dists (some 2) v.samples t) 0) :
    expEntropy renyiVal [.arr v] (.int k) order b = .ok 0 ∧ expEntropy tsallisVal [.arr v] (.int k) order b = .ok 0 := by
  have hN := pred_pos hk hkn
  have hr := rho_nonneg hz
  have h0 : ∀ r ∈ (List.range n).map (fun _ => (0 : ℝ)), r = 0 := by
    intro r hr
    obtain ⟨t, _, rfl⟩ := List.mem_map.1 hr
    rfl
  have hne : (List.range n).map (fun _ => (0 : ℝ)) ≠ [] := by
    intro h
    have := congrArg List.length h
    simp at this
    omega
  rw [expEntropy_arr H hk hkn ho b hz, expEntropy_arr H hk hkn ho b hz]
  unfold renyiVal tsallisVal
  by_cases h1 : q = 1
  · subst h1
    have : lpsLog ((n : ℝ) - 1) k v.dim ((List.range n).map (fun _ => (0 : ℝ))) = 0 := by
      unfold lpsLog mean
      rw [List.map_map]
      have : (List.range n).map ((fun ρ => if ρ = 0 then 0 else Real.log ((n - 1) * Real.exp (- psi k) * ballVolume v.dim (some 2) ρ)) ∘
          fun _ => (0 : ℝ)) = (List.range n).map (fun _ => (0 : ℝ)) := List.map_congr_left fun t _ => by simp
      rw [this]
      simp
    simp only [ne_eq, not_true_eq_false, if_false]
    rw [expFamilyI1_ok hk hne hr hN H.dim hb, this]
    simp
  · rw [if_pos h1, if_pos h1, expFamilyIq_ok hk hq hne hr hN.le H.dim, lpsI_zero h0]
    simp [bind, Except.bind]

example := C64_coinciding (.one [4, 4]) 2 ⟨rfl, KVar.wf_one _, by decide⟩ 1 (by decide) (by decide) (.num (3 / 2)) (3 / 2) (by norm_num [PyArg.posNumber]) (by norm_num) .e trivial
  (fun t ht => by
    have h := two_isKth (dists (some 2) (KVar.samples (.one [4, 4])) t) ht
    have e : dists (some 2) (KVar.samples (.one [4, 4])) t (1 - t) = 0 := by
      interval_cases t <;> exact (line_distance 4 4).trans (by norm_num)
    rwa [e] at h)

/-- Order `k + 1`: always 0. -/
theorem C64_order_k_plus_one (v : KVar) (n : Nat) (H : v.Sample n) (k : Nat) (hk : 0 < k) (hkn : k < n) (order : PyArg)
    (ho : order.posNumber = some ((k : ℝ) + 1)) (b : Base) :
    expEntropy renyiVal [.arr v] (.int k) order b = .ok 0 ∧ expEntropy tsallisVal [.arr v] (.int k) order b = .ok 0 := by
  have hp : (PNorm.num 2).ok = true := by simp [PNorm.ok]
  obtain ⟨ρ, hρ⟩ := Sample.exists_kth (p := .num 2) H hp hk hkn
  have h1 : (k : ℝ) + 1 ≠ 1 := by
    have : (0 : ℝ) < k := by exact_mod_cast hk
    linarith
  rw [expEntropy_arr H hk hkn ho b (fun t ht => (hρ t ht).2), expEntropy_arr H hk hkn ho b (fun t ht => (hρ t ht).2)]
  unfold renyiVal tsallisVal expFamilyIq
  rw [if_pos h1, if_pos h1]
  simp [bind, Except.bind]

example := C64_order_k_plus_one (.one [0, 1, 3]) 3 ⟨rfl, KVar.wf_one _, by decide⟩ 2 (by decide) (by decide) (.num 3) (by norm_num [PyArg.posNumber]) .e

theorem gamma_neg_of {x : ℝ} (h1 : -1 < x) (h2 : x < 0) : Real.Gamma x < 0 := by
  have h := Real.Gamma_add_one (s := x) h2.ne
  have hp : 0 < Real.Gamma (x + 1) := Real.Gamma_pos_of_pos (by linarith)
  rw [h] at hp
  by_contra hc
  push Not at hc
  nlinarith

/-- Orders just above `k + 1`: not a number. -/
theorem C64_order_too_large (v : KVar) (n : Nat) (H : v.Sample n) (k : Nat) (hk : 0 < k) (hkn : k < n) (order : PyArg) (q : ℝ)
    (ho : order.posNumber = some q) (h1 : (k : ℝ) + 1 < q) (h2 : q < k + 2) (b : Base) :
    expEntropy renyiVal [.arr v] (.int k) order b = .error .nonFinite ∧
      expEntropy tsallisVal [.arr v] (.int k) order b = .error .nonFinite := by
  have hp : (PNorm.num 2).ok = true := by simp [PNorm.ok]
  obtain ⟨ρ, hρ⟩ := Sample.exists_kth (p := .num 2) H hp hk hkn
  have hk0 : (0 : ℝ) < k := by exact_mod_cast hk
  have hq1 : q ≠ 1 := by intro h; rw [h] at h1; linarith
  have hg : Real.Gamma k / Real.Gamma (k + 1 - q) ≤ 0 :=
    div_nonpos_of_nonneg_of_nonpos (Real.Gamma_pos_of_pos hk0).le (gamma_neg_of (by linarith) (by linarith)).le
  rw [expEntropy_arr H hk hkn ho b (fun t ht => (hρ t ht).2), expEntropy_arr H hk hkn ho b (fun t ht => (hρ t ht).2)]
  unfold renyiVal tsallisVal expFamilyIq
  rw [if_pos hq1, if_pos hq1, if_neg h1.ne']
  simp only
  rw [if_pos hg]
  exact ⟨rfl, rfl⟩

example := C64_order_too_large (.one [0, 1, 3]) 3 ⟨rfl, KVar.wf_one _, by decide⟩ 2 (by decide) (by decide) (.num (7 / 2)) (7 / 2) (by norm_num [PyArg.posNumber]) (by norm_num) (by norm_num) .e

/-- Too few samples: `k ≥ n` is rejected for every order. -/
theorem C64_k_too_large (val : Nat → ℝ → KnnParts → ℝ → Base → Except Exc ℝ) (v : KVar) (n : Nat) (H : v.Sample n) (k : Nat) (hk : 0 < k)
    (hkn : n ≤ k) (order : PyArg) (b : Base) : expEntropy val [.arr v] (.int k) order b = .error .valueError := by
  cases ho : order.posNumber with
  | none => simp [expEntropy, expInit, ho, bind, Except.bind]
  | some q =>
    unfold expEntropy
    rw [expInit_arr hk ho]
    have hl := (arr_aligned H.len H.wf).1
    have : knnParts (assure2d v) k none = .error .valueError := by
      unfold knnParts
      simp only [Option.getD_none]
      rw [if_neg (by simp), if_pos (by omega)]
    simp only [bind, Except.bind, this]

example := C64_k_too_large renyiVal (.one [0, 1, 3]) 3 ⟨rfl, KVar.wf_one _, by decide⟩ 3 (by decide) (by decide) (.num 2) .e

/-- The order must be a positive number and `k` a positive integer, whatever the data. -/
theorem C64_parameter_errors (val : Nat → ℝ → KnnParts → ℝ → Base → Except Exc ℝ) (args : List KArg) (k order : PyArg) (b : Base)
    (h : order.posNumber = none ∨ k.posInt = false) : expEntropy val args k order b = .error .valueError := by
  have : expInit args k order = .error .valueError := by
    unfold expInit
    simp only [bind, Except.bind]
    rcases h with h | h
    · rw [h]
      split <;> first | rfl | (split_ifs <;> rfl)
    · simp only [h]
      cases order.posNumber <;> (simp only; split <;> first | rfl | (split_ifs <;> first | rfl | simp_all))
  unfold expEntropy
  rw [this]
  rfl

example := C64_parameter_errors renyiVal [.arr (.one [0, 1, 3])] (.int 0) (.num 2) .e (.inr rfl)

end Verif
