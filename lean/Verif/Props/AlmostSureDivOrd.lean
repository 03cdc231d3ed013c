import Verif.Props.AlmostSureDiv
import Verif.Props.WhiteNoiseEx

/-!
# C104: the divergences of the ordinal patterns of random readings
-/

namespace Verif

open Spec MeasureTheory ProbabilityTheory

variable {Ω : Type} [MeasurableSpace Ω] {μ : Measure Ω} [IsProbabilityMeasure μ] {M M' d s : ℕ}
variable {W : World} {a : PyName} {kw : Kw} {b : Base} {oj : Est → List PyData → Except Exc ℝ}

theorem asd_patterns (X : ℕ → Ω → ℝ) (d s n : ℕ) (ω : Ω) : patterns (observed X n ω) d s = observed (patternAt X d s) (n - (d - 1) * s) ω :=
  noise_patterns X d s n ω

/-- **C104** The same for `approach="ordinal"`: if the ordinal patterns of the readings of either series have distributions `p` and `q` and patterns far
enough apart are independent, `im.kld` of the first `n` readings converges almost surely to the divergence of `p` and `q`. -/
theorem C104_kld_ordinal (h : Call W .h .ordinal a kw b) (hb : b.Std) (st : Bool) (h1 : kw "embedding_dim" = some (.int d))
    (h2 : kwOr kw "step_size" (.int 1) = .int s) (h3 : kwOr kw "stable" (.bool false) = .bool st) (hd : 1 ≤ d) (hd' : d ≤ 20) (hs : 1 ≤ s)
    {X Y : ℕ → Ω → ℝ} {S : Finset (List ℕ)} {p q : List ℕ → ℝ} (hM : 0 < M) (hX : Sampling μ (patternAt X d s) S p M)
    (hM' : 0 < M') (hY : Sampling μ (patternAt Y d s) S q M') (dX : ∀ᵐ ω ∂μ, AllDistinct X ω) (dY : ∀ᵐ ω ∂μ, AllDistinct Y ω) :
    (∀ᵐ ω ∂μ, ∃ v : ℕ → ℝ, (∀ n, (d - 1) * s < n →
        imKld W (.reals (observed X n ω)) (.reals (observed Y n ω)) (some a) .absent kw = .ok (v n)) ∧
      Filter.Tendsto v Filter.atTop (nhds ((crossOf S p q - shannon S p) / b.ln))) ∧
    ((∀ a ∈ S, p a ≠ 0 → q a ≠ 0) → crossOf S p q - shannon S p = klOf S p q ∧ 0 ≤ klOf S p q ∧ (klOf S p q = 0 ↔ ∀ a ∈ S, p a = q a)) := by
  refine ⟨?_, C104_kl_limit hX hY⟩
  filter_upwards [as_freq hM hX, as_freq hM' hY, asd_zero hY, dX, dY] with ω hx hy h0 tx ty
  refine ⟨fun n => (crossEntropy (observed (patternAt X d s) (n - (d - 1) * s) ω) (observed (patternAt Y d s) (n - (d - 1) * s) ω) -
    entropy (observed (patternAt X d s) (n - (d - 1) * s) ω)) / b.ln, fun n hn => ?_,
    ((asd_kld_tendsto hx hy h0).comp (noise_windows_tendsto ((d - 1) * s))).div_const _⟩
  obtain ⟨v, e1, e2, -⟩ := C83_kld_ordinal h hb (observed X n ω) (observed Y n ω) d s st h1 h2 h3 hd hd' hs (by rw [observed_length]; exact hn)
    (by rw [observed_length]; exact hn) (noise_tieFree tx hs d n) (noise_tieFree ty hs d n)
  rw [e1, e2, asd_patterns, asd_patterns]

/-- **C104** and for `im.jsd`. -/
theorem C104_jsd_ordinal (h : Call W .h .ordinal a kw b) (hb : b.Std) (st : Bool) (h1 : kw "embedding_dim" = some (.int d))
    (h2 : kwOr kw "step_size" (.int 1) = .int s) (h3 : kwOr kw "stable" (.bool false) = .bool st) (hd : 2 ≤ d) (hs : 1 ≤ s)
    {m : ℕ} (hm : 0 < m) {X : Fin m → ℕ → Ω → ℝ} {S : Finset (List ℕ)} {P : Fin m → List ℕ → ℝ}
    {N : Fin m → ℕ} (hN : ∀ j, 0 < N j) (hX : ∀ j, Sampling μ (patternAt (X j) d s) S (P j) (N j)) (dX : ∀ j, ∀ᵐ ω ∂μ, AllDistinct (X j) ω) :
    (∀ᵐ ω ∂μ, ∃ v : ℕ → ℝ, (∀ n, (d - 1) * s + 1 < n →
        imJsd W oj (List.ofFn fun j => .reals (observed (X j) n ω)) a .absent kw = .ok (v n)) ∧
      Filter.Tendsto v Filter.atTop (nhds (jsdOf S P / b.ln))) ∧
    0 ≤ jsdOf S P ∧ (jsdOf S P = 0 ↔ ∀ i j, ∀ a ∈ S, P i a = P j a) := by
  refine ⟨?_, asd_jsd_limit hm (fun j => asd_law_nonneg (hX j)) fun j => asd_law_sum (hX j)⟩
  filter_upwards [ae_all_iff.2 fun j => as_freq (hN j) (hX j), ae_all_iff.2 dX] with ω hω tω
  refine ⟨fun n => jsd (List.ofFn fun j => observed (patternAt (X j) d s) (n - (d - 1) * s) ω) / b.ln, fun n hn => ?_,
    ((asd_jsd_tendsto (L := fun n j => observed (patternAt (X j) d s) n ω) (fun n j => (hω j).1 n) fun j => (hω j).2).comp
      (noise_windows_tendsto ((d - 1) * s))).div_const _⟩
  obtain ⟨v, e1, e2, -⟩ := C83_jsd_ordinal (oj := oj) h hb (List.ofFn fun j => observed (X j) n ω)
    (by intro e; have := congrArg List.length e; simp at this; omega) d s st h1 h2 h3 hd hs (by
      intro xs hxs
      obtain ⟨j, rfl⟩ := (List.mem_ofFn' _ _).1 hxs
      rw [observed_length]; exact hn) (by
      intro xs hxs
      obtain ⟨j, rfl⟩ := (List.mem_ofFn' _ _).1 hxs
      exact noise_tieFree (tω j) hs d n)
  rw [List.map_ofFn] at e1
  rw [List.map_ofFn] at e2
  rw [e2] at e1
  have : (List.ofFn ((fun x => patterns x d s) ∘ fun j => observed (X j) n ω)) =
      List.ofFn fun j => observed (patternAt (X j) d s) (n - (d - 1) * s) ω := by
    congr 1
    funext j
    exact asd_patterns (X j) d s n ω
  rw [this] at e1
  exact e1

/-- **C104** Independent readings with a common continuous distribution: whatever the two distributions are, the ordinal divergences vanish in the
limit – patterns cannot tell two noises apart. -/
theorem C104_noise (h : Call W .h .ordinal a kw b) (hb : b.Std) (st : Bool) (h1 : kw "embedding_dim" = some (.int d))
    (h2 : kwOr kw "step_size" (.int 1) = .int s) (h3 : kwOr kw "stable" (.bool false) = .bool st) (hd : 2 ≤ d) (hd' : d ≤ 20) (hs : 1 ≤ s)
    {X Y : ℕ → Ω → ℝ} (hX : Noise μ X) (hcx : NoAtom μ X) (hY : Noise μ Y) (hcy : NoAtom μ Y) :
    (∀ᵐ ω ∂μ, ∃ v : ℕ → ℝ, (∀ n, (d - 1) * s < n →
        imKld W (.reals (observed X n ω)) (.reals (observed Y n ω)) (some a) .absent kw = .ok (v n)) ∧ Filter.Tendsto v Filter.atTop (nhds 0)) ∧
    (∀ᵐ ω ∂μ, ∃ v : ℕ → ℝ, (∀ n, (d - 1) * s + 1 < n →
        imJsd W oj [.reals (observed X n ω), .reals (observed Y n ω)] a .absent kw = .ok (v n)) ∧ Filter.Tendsto v Filter.atTop (nhds 0)) := by
  have sX := C96_patterns (d := d) hX hcx hs
  have sY := C96_patterns (d := d) hY hcy hs
  have hp : ∀ a ∈ allPatterns d, (1 / (d.factorial : ℝ)) ≠ 0 := fun _ _ => by positivity
  constructor
  · obtain ⟨k1, k2⟩ := C104_kld_ordinal h hb st h1 h2 h3 (by omega) hd' hs (Nat.succ_pos _) sX (Nat.succ_pos _) sY (noise_distinct hX hcx) (noise_distinct hY hcy)
    obtain ⟨e1, -, e2⟩ := k2 fun a ha _ => hp a ha
    rw [e1, e2.2 fun _ _ => rfl, zero_div] at k1
    exact k1
  · obtain ⟨k1, -, k2⟩ := C104_jsd_ordinal (m := 2) (oj := oj) h hb st h1 h2 h3 hd hs two_pos (X := ![X, Y])
      (P := fun _ _ => 1 / (d.factorial : ℝ)) (N := fun _ => (d - 1) * s + 1) (fun _ => Nat.succ_pos _)
      (by intro j; fin_cases j; exact sX; exact sY) (by intro j; fin_cases j; exact noise_distinct hX hcx; exact noise_distinct hY hcy)
    rw [k2.2 fun _ _ _ _ => rfl, zero_div] at k1
    exact k1

example := C104_noise (d := 3) (s := 2) (b := .num 2) (oj := fun _ _ => .error .nonFinite)
  (call "permutation", [("embedding_dim", .int 3), ("step_size", .int 2), ("base", .int 2)]) (by norm_num [Base.Std]) false (by kw) (by kw) (by kw)
  (by norm_num) (by norm_num) (by norm_num) (noEx_noise _ noEx_even) (noEx_atom _) (noEx_noise _ noEx_odd) (noEx_atom _)

end Verif
