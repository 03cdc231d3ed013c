import Verif.Model.ExpMI
import Verif.Props.RenyiTsallis2
import Verif.Props.KsgTE2

/-!
# Rényi and Tsallis entropies depend only on the distances
-/

namespace Verif

open Spec

/-- the type of `renyiVal` and `tsallisVal` -/
abbrev ExpVal := Nat → ℝ → KnnParts → ℝ → Base → Except Exc ℝ

theorem expInit_other {k order : PyArg} (h : order.posNumber = none ∨ k.posInt = false) (val : ExpVal) (args : List KArg) (b : Base) :
    expEntropy val args k order b = .error .valueError := C64_parameter_errors val args k order b h

theorem posInt_nat {k : PyArg} (h : k.posInt = true) : ∃ m : Nat, 0 < m ∧ k = .int m := by
  cases k with
  | int n =>
    have : 0 < n := by simpa [PyArg.posInt] using h
    exact ⟨n.toNat, by omega, by rw [Int.toNat_of_nonneg this.le]⟩
  | num x => simp [PyArg.posInt] at h
  | other => simp [PyArg.posInt] at h

/-- Two samples with the same pairwise distances and dimension have the same entropy, whatever the parameters. -/
theorem expEntropy_congr {v w : KVar} {n : Nat} (H : v.Sample n) (H' : w.Sample n) (hdim : v.dim = w.dim)
    (hd : ∀ t < n, ∀ s < n, dists (some 2) v.samples t s = dists (some 2) w.samples t s) (val : ExpVal) (k order : PyArg) (b : Base) :
    expEntropy val [.arr v] k order b = expEntropy val [.arr w] k order b := by
  cases ho : order.posNumber with
  | none => rw [expInit_other (.inl ho), expInit_other (.inl ho)]
  | some q =>
    cases hk : k.posInt with
    | false => rw [expInit_other (.inr hk), expInit_other (.inr hk)]
    | true =>
      obtain ⟨m, hm, rfl⟩ := posInt_nat hk
      rcases Nat.lt_or_ge m n with hkn | hkn
      · obtain ⟨ρ, hρ⟩ := Sample.exists_kth (p := .num 2) H (by simp [PNorm.ok]) hm hkn
        rw [expEntropy_arr H hm hkn ho b (fun t ht => (hρ t ht).2),
          expEntropy_arr H' hm hkn ho b (fun t ht => isKthDist_congr (fun s hs => hd t ht s hs) (hρ t ht).2), hdim]
      · rw [C64_k_too_large val v n H m hm hkn, C64_k_too_large val w n H' m hm hkn]

theorem sideBySide_sample {vs : List KVar} (hne : vs ≠ []) {n : Nat} (hs : ∀ v ∈ vs, v.Sample n) :
    (sideBySide n vs).Sample n ∧ (sideBySide n vs).dim = (vs.map KVar.dim).sum := by
  have hdim : (sideBySide n vs).dim = (vs.map KVar.dim).sum := rfl
  refine ⟨⟨by simp [sideBySide, KVar.len], ?_, ?_⟩, hdim⟩
  · intro x hx
    obtain ⟨t, ht, rfl⟩ := List.mem_map.1 hx
    have ht' := List.mem_range.1 ht
    have ha : Aligned n (vs.map assure2d) := by
      intro a ha
      obtain ⟨v, hv, rfl⟩ := List.mem_map.1 ha
      exact arr_aligned (hs v hv).len (hs v hv).wf
    have := jrow_length ha ht'
    rw [jrow_eq, samples_eq, List.map_map] at this
    exact this
  · rw [hdim]
    cases vs with
    | nil => exact absurd rfl hne
    | cons v vs =>
      have := (hs v (by simp)).dim
      simp only [List.map_cons, List.sum_cons]
      omega

theorem sideBySide_dists {vs : List KVar} {n : Nat} {t s : Nat} (ht : t < n) (hs : s < n) (p : Option ℝ) :
    dists p (sideBySide n vs).samples t s = jointDists p (vs.map KVar.samples) t s :=
  dists_of_sample (fun _ _ => rfl) ht hs

/-- joint entropy of variables -/
theorem expEntropy_joint {vs : List KVar} (hne : vs ≠ []) {n : Nat} (hs : ∀ v ∈ vs, v.Sample n) (val : ExpVal) (k order : PyArg) (b : Base) :
    expEntropy val [.tup vs] k order b = expEntropy val [.arr (sideBySide n vs)] k order b :=
  C64_joint val vs hne n (fun v hv => (hs v hv).len) k order b

theorem expEntropy_joint_congr {vs ws : List KVar} (hv : vs ≠ []) (hw : ws ≠ []) {n : Nat} (hsv : ∀ v ∈ vs, v.Sample n)
    (hsw : ∀ v ∈ ws, v.Sample n) (hdim : (vs.map KVar.dim).sum = (ws.map KVar.dim).sum)
    (hd : ∀ t < n, ∀ s < n, jointDists (some 2) (vs.map KVar.samples) t s = jointDists (some 2) (ws.map KVar.samples) t s)
    (val : ExpVal) (k order : PyArg) (b : Base) :
    expEntropy val [.tup vs] k order b = expEntropy val [.tup ws] k order b := by
  rw [expEntropy_joint hv hsv, expEntropy_joint hw hsw]
  obtain ⟨h1, e1⟩ := sideBySide_sample hv hsv
  obtain ⟨h2, e2⟩ := sideBySide_sample hw hsw
  refine expEntropy_congr h1 h2 (by rw [e1, e2, hdim]) (fun t ht s hs => ?_) val k order b
  rw [sideBySide_dists ht hs, sideBySide_dists ht hs, hd t ht s hs]

theorem expEntropy_joint_perm {vs ws : List KVar} (h : vs.Perm ws) {n : Nat} (hs : ∀ v ∈ vs, v.Sample n) (val : ExpVal) (k order : PyArg)
    (b : Base) : expEntropy val [.tup vs] k order b = expEntropy val [.tup ws] k order b := by
  by_cases hv : vs = []
  · subst hv
    rw [List.nil_perm.1 h]
  · have hw : ws ≠ [] := fun e => hv (List.perm_nil.1 (e ▸ h))
    refine expEntropy_joint_congr hv hw hs (fun v hv => hs v (h.mem_iff.2 hv)) ((h.map KVar.dim).sum_eq) (fun t ht s hs' => ?_) val k order b
    have ha : Aligned n (vs.map assure2d) := by
      intro a ha
      obtain ⟨v, hv, rfl⟩ := List.mem_map.1 ha
      exact arr_aligned (hs v hv).len (hs v hv).wf
    have := jointDists_perm (p := .num 2) ha (h.map assure2d) ht hs'
    rw [samples_eq, samples_eq] at this
    exact this

/-- the value does not depend on the order of the neighbour distances -/
def ExpVal.Symmetric (val : ExpVal) : Prop :=
  ∀ k q vol (L L' : List ℝ) n d N b, b.Valid → L.Perm L' → val k q ⟨vol, L, n, d⟩ N b = val k q ⟨vol, L', n, d⟩ N b

theorem expFamilyIq_perm {L L' : List ℝ} (h : L.Perm L') (k : Nat) (q vol N : ℝ) (d : Nat) :
    expFamilyIq k q vol L N d = expFamilyIq k q vol L' N d := by
  unfold expFamilyIq
  rw [h.length_eq, ((h.filter _).map _).sum_eq]

theorem expFamilyI1_perm {L L' : List ℝ} (h : L.Perm L') (k : Nat) (vol N : ℝ) (d : Nat) {b : Base} (hb : b.Valid) :
    expFamilyI1 k vol L N d b = expFamilyI1 k vol L' N d b := by
  unfold expFamilyI1
  cases npDigamma (k : Int) with
  | error e => rfl
  | ok ψ =>
    simp only [bind, Except.bind]
    rw [mapM_ok (g := fun z => Real.log z / b.ln), mapM_ok (g := fun z => Real.log z / b.ln)]
    · simp only [List.length_map, h.length_eq]
      rw [(((h.map _).filter _).map _).sum_eq]
    · intro z hz
      exact logBase_ok hb (by simpa using (List.mem_filter.1 hz).2)
    · intro z hz
      exact logBase_ok hb (by simpa using (List.mem_filter.1 hz).2)

theorem renyiVal_symmetric : ExpVal.Symmetric renyiVal := by
  intro k q vol L L' n d N b hb h
  unfold renyiVal
  simp only [expFamilyIq_perm h, expFamilyI1_perm h k vol N d hb]

theorem tsallisVal_symmetric : ExpVal.Symmetric tsallisVal := by
  intro k q vol L L' n d N b hb h
  unfold tsallisVal
  simp only [expFamilyIq_perm h, expFamilyI1_perm h k vol N d hb]

/-- relabelling the samples does not change the entropy -/
theorem expEntropy_relabel {v w : KVar} {n : Nat} (H : v.Sample n) (H' : w.Sample n) (hdim : w.dim = v.dim) {f : Nat → Nat}
    (hf : ((List.range n).map f).Perm (List.range n))
    (hd : ∀ t < n, ∀ s < n, dists (some 2) w.samples t s = dists (some 2) v.samples (f t) (f s)) {val : ExpVal} (hval : val.Symmetric)
    (k order : PyArg) {b : Base} (hb : b.Valid) :
    expEntropy val [.arr w] k order b = expEntropy val [.arr v] k order b := by
  cases ho : order.posNumber with
  | none => rw [expInit_other (.inl ho), expInit_other (.inl ho)]
  | some q =>
    cases hk : k.posInt with
    | false => rw [expInit_other (.inr hk), expInit_other (.inr hk)]
    | true =>
      obtain ⟨m, hm, rfl⟩ := posInt_nat hk
      rcases Nat.lt_or_ge m n with hkn | hkn
      · obtain ⟨ρ, hρ⟩ := Sample.exists_kth (p := .num 2) H (by simp [PNorm.ok]) hm hkn
        have hlt : ∀ t < n, f t < n := fun t ht => List.mem_range.1 (hf.mem_iff.1 (List.mem_map.2 ⟨t, List.mem_range.2 ht, rfl⟩))
        have hρ' : ∀ t < n, IsKthDist n m t (dists (some 2) w.samples t) (ρ (f t)) := fun t ht =>
          isKthDist_congr (fun s hs => (hd t ht s hs).symm) (isKthDist_relabel hf ht (hρ _ (hlt t ht)).2)
        rw [expEntropy_arr H hm hkn ho b (fun t ht => (hρ t ht).2), expEntropy_arr H' hm hkn ho b hρ', hdim]
        refine hval _ _ _ _ _ _ _ _ _ hb ?_
        have := hf.map ρ
        rw [List.map_map] at this
        exact this
      · rw [C64_k_too_large val v n H m hm hkn, C64_k_too_large val w n H' m hm hkn]

theorem reorder_sample {v : KVar} {n : Nat} (H : v.Sample n) {σ : List Nat} (hσ : σ.Perm (List.range n)) :
    (v.reorder σ).Sample n ∧ (v.reorder σ).dim = v.dim := by
  have hdim : (v.reorder σ).dim = v.dim := by cases v <;> rfl
  exact ⟨⟨reorder_len hσ v, reorder_wf hσ H.len H.wf, by rw [hdim]; exact H.dim⟩, hdim⟩

theorem expEntropy_reorder {v : KVar} {n : Nat} (H : v.Sample n) {σ : List Nat} (hσ : σ.Perm (List.range n)) {val : ExpVal}
    (hval : val.Symmetric) (k order : PyArg) {b : Base} (hb : b.Valid) :
    expEntropy val [.arr (v.reorder σ)] k order b = expEntropy val [.arr v] k order b := by
  obtain ⟨H', hdim⟩ := reorder_sample H hσ
  refine expEntropy_relabel H H' hdim (perm_index hσ) (fun t ht s hs => ?_) hval k order hb
  unfold dists
  rw [reorder_samples hσ H.len ht, reorder_samples hσ H.len hs]

theorem expEntropy_joint_reorder {vs : List KVar} (hne : vs ≠ []) {n : Nat} (hs : ∀ v ∈ vs, v.Sample n) {σ : List Nat}
    (hσ : σ.Perm (List.range n)) {val : ExpVal} (hval : val.Symmetric) (k order : PyArg) {b : Base} (hb : b.Valid) :
    expEntropy val [.tup (vs.map (KVar.reorder σ))] k order b = expEntropy val [.tup vs] k order b := by
  have hs' : ∀ v ∈ vs.map (KVar.reorder σ), v.Sample n := by
    intro w hw
    obtain ⟨v, hv, rfl⟩ := List.mem_map.1 hw
    exact (reorder_sample (hs v hv) hσ).1
  have hne' : vs.map (KVar.reorder σ) ≠ [] := by simpa using hne
  rw [expEntropy_joint hne hs, expEntropy_joint hne' hs']
  obtain ⟨h1, e1⟩ := sideBySide_sample hne hs
  obtain ⟨h2, e2⟩ := sideBySide_sample hne' hs'
  have hf := perm_index hσ
  have hlt : ∀ t < n, σ.getD t 0 < n := fun t ht => List.mem_range.1 (hf.mem_iff.1 (List.mem_map.2 ⟨t, List.mem_range.2 ht, rfl⟩))
  have hj : ∀ t < n, jointSample ((vs.map (KVar.reorder σ)).map KVar.samples) t = jointSample (vs.map KVar.samples) (σ.getD t 0) := by
    intro t ht
    unfold jointSample
    rw [List.map_map, List.map_map, List.map_map]
    congr 1
    refine List.map_congr_left fun v hv => ?_
    exact reorder_samples hσ (hs v hv).len ht
  refine expEntropy_relabel h1 h2 ?_ hf (fun t ht s hs' => ?_) hval k order hb
  · rw [e1, e2, List.map_map]
    congr 1
    exact List.map_congr_left fun v hv => (reorder_sample (hs v hv) hσ).2
  · rw [sideBySide_dists ht hs', sideBySide_dists (hlt t ht) (hlt s hs')]
    unfold jointDists
    rw [hj t ht, hj s hs']

end Verif
