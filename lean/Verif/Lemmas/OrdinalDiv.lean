import Verif.Props.Ordinal2
import Verif.Props.Divergence

/-! # Lemmas for the ordinal divergences -/

namespace Verif

open Spec

section generic
variable {Ω κ κ' : Type} [DecidableEq κ] [DecidableEq κ']

theorem freq_map_congr (l : List Ω) (f : Ω → κ) (g : Ω → κ') (u : Ω) (h : ∀ v ∈ l, (f v = f u ↔ g v = g u)) :
    freq (l.map f) (f u) = freq (l.map g) (g u) := by
  have : cnt (l.map f) (f u) = cnt (l.map g) (g u) := by
    rw [cnt_map, cnt_map]
    refine List.countP_congr fun v hv => ?_
    simpa using h v hv
  simp only [freq, this, List.length_map]

theorem sum_freq_mul (l : List κ) (F : κ → ℝ) : ∑ a ∈ l.toFinset, freq l a * F a = (l.map F).sum / l.length := by
  rw [sum_map_eq_count, Finset.sum_div]
  refine Finset.sum_congr rfl fun a _ => ?_
  unfold freq; ring

theorem crossEntropy_eq (xs ys : List κ) :
    crossEntropy xs ys = - ((xs.map (fun a => Real.log (freq ys a))).sum / xs.length) := by
  rw [crossEntropy, ← sum_freq_mul]
  congr 1
  refine Finset.sum_subset Finset.inter_subset_left fun a ha hn => ?_
  have : a ∉ ys := by
    intro h
    exact hn (Finset.mem_inter.2 ⟨ha, List.mem_toFinset.2 h⟩)
  rw [freq_eq_zero this, Real.log_zero, mul_zero]

theorem crossEntropy_map_congr (xs ys : List Ω) (f : Ω → κ) (g : Ω → κ')
    (h : ∀ u ∈ xs, ∀ v ∈ ys, (f v = f u ↔ g v = g u)) :
    crossEntropy (xs.map f) (ys.map f) = crossEntropy (xs.map g) (ys.map g) := by
  rw [crossEntropy_eq, crossEntropy_eq, List.map_map, List.map_map, List.length_map, List.length_map]
  congr 3
  refine List.map_congr_left fun u hu => ?_
  simp only [Function.comp]
  rw [freq_map_congr ys f g u (h u hu)]

theorem mixture_map_congr (wss : List (List Ω)) (f : Ω → κ) (g : Ω → κ') (u : Ω)
    (h : ∀ l ∈ wss, ∀ v ∈ l, (f v = f u ↔ g v = g u)) :
    mixture (wss.map (fun l => l.map f)) (f u) = mixture (wss.map (fun l => l.map g)) (g u) := by
  rw [mixture, mixture, List.map_map, List.map_map, List.length_map, List.length_map]
  congr 2
  exact List.map_congr_left fun l hl => freq_map_congr l f g u (h l hl)

/-- the divergence only depends on which observations are equal -/
theorem jsd_map_congr (wss : List (List Ω)) (f : Ω → κ) (g : Ω → κ')
    (h : ∀ l ∈ wss, ∀ u ∈ l, ∀ l' ∈ wss, ∀ v ∈ l', (f v = f u ↔ g v = g u)) :
    jsd (wss.map (fun l => l.map f)) = jsd (wss.map (fun l => l.map g)) := by
  rw [jsd, jsd, List.map_map, List.map_map, List.length_map, List.length_map]
  congr 2
  refine List.map_congr_left fun l hl => ?_
  simp only [Function.comp]
  rw [sum_freq_mul, sum_freq_mul, List.map_map, List.map_map, List.length_map, List.length_map]
  congr 2
  refine List.map_congr_left fun u hu => ?_
  simp only [Function.comp]
  rw [freq_map_congr l f g u (fun v hv => h l hl u hu l hl v hv),
    mixture_map_congr wss f g u (fun l' hl' v hv => h l hl u hu l' hl' v hv)]

/-- a dictionary holding the frequencies of a sample -/
structure Dst.Of (D : Dst κ) (P : List κ) : Prop where
  keys : ∀ k, k ∈ D.keys ↔ k ∈ P
  val : ∀ k ∈ P, D.p k = freq P k

theorem Dst.Of.ext_eq {D : Dst κ} {P : List κ} (h : D.Of P) (a : κ) : D.ext a = freq P a := by
  unfold Dst.ext
  split_ifs with ha
  · exact h.val a ((h.keys a).1 ha)
  · exact (freq_eq_zero fun hp => ha ((h.keys a).2 hp)).symm

theorem jsdD_of {ι : Type} (l : List ι) (D : ι → Dst κ) (P : ι → List κ) (h : ∀ i ∈ l, (D i).Of (P i)) :
    jsdD (l.map D) = jsd (l.map P) := by
  have hm : ∀ a, mixD (l.map D) a = mixture (l.map P) a := by
    intro a
    rw [mixD, mixture, List.map_map, List.map_map, List.length_map, List.length_map]
    congr 2
    exact List.map_congr_left fun i hi => (h i hi).ext_eq a
  rw [jsdD, jsd, List.map_map, List.map_map, List.length_map, List.length_map]
  congr 2
  refine List.map_congr_left fun i hi => ?_
  simp only [Function.comp]
  have hf : (D i).keys.toFinset = (P i).toFinset := by ext k; simp [(h i hi).keys k]
  rw [hf]
  refine Finset.sum_congr rfl fun a ha => ?_
  rw [hm, (h i hi).val a (List.mem_toFinset.1 ha)]

theorem Dst.Of.ent {D : Dst κ} {P : List κ} (h : D.Of P) : D.ent = entropy P := by
  rw [Dst.ent, ← List.sum_toFinset _ D.nodup, entropy]
  have hf : D.keys.toFinset = P.toFinset := by ext k; simp [h.keys k]
  rw [hf]
  congr 1
  refine Finset.sum_congr rfl fun a ha => ?_
  rw [h.val a (List.mem_toFinset.1 ha)]

/-- the divergence of samples: bounds and equality case -/
theorem jsd_bounds (Ps : List (List κ)) (hne : Ps ≠ []) (hP : ∀ P ∈ Ps, P ≠ []) :
    0 ≤ jsd Ps ∧ jsd Ps ≤ Real.log Ps.length ∧ (jsd Ps = 0 ↔ ∀ P ∈ Ps, ∀ Q ∈ Ps, SameDist P Q) := by
  let D : List κ → Dst κ := fun P => ⟨P.dedup, freq P, List.nodup_dedup _, fun a ha => freq_pos (List.mem_dedup.1 ha)⟩
  have hD : ∀ P, (D P).Of P := fun P => ⟨fun k => List.mem_dedup, fun k _ => rfl⟩
  have e : jsdD (Ps.map D) = jsd Ps := by
    have := jsdD_of Ps D id fun P _ => hD P
    rwa [List.map_id] at this
  have hne' : Ps.map D ≠ [] := by simpa using hne
  rw [← e]
  refine ⟨jsdD_nonneg _ hne', ?_, ?_⟩
  · have := jsdD_le (Ps.map D) hne' (by
      intro E hE
      obtain ⟨P, hP', rfl⟩ := List.mem_map.1 hE
      rw [← List.sum_toFinset _ (D P).nodup]
      simp only [D]
      have : P.dedup.toFinset = P.toFinset := by ext; simp
      rw [this, sum_freq (hP P hP')])
    simpa using this
  · rw [jsdD_eq_zero_iff _ hne']
    simp only [List.mem_map, forall_exists_index, and_imp, forall_apply_eq_imp_iff₂, (hD _).ext_eq]
    rfl

end generic

section
variable {α : Type} [LinearOrder α] [Inhabited α]

omit [LinearOrder α] in
theorem ordInit_pair (x y : List α) {d s : Nat} (hd : 1 ≤ d) (hs : 1 ≤ s) (hn : (d - 1) * s < x.length)
    (stable : Bool) :
    ordInit [.arr1 x, .arr1 y] { dim := .int d, step := .int s, stable := stable } =
      .ok ([.arr1 x, .arr1 y], (d : Int), (s : Int)) := by
  have h3 : ¬ (((d : Int) - 1) * s + 1 > (x.length : Int)) := by
    have : ((d : Int) - 1) = ((d - 1 : Nat) : Int) := by omega
    rw [this]
    intro h
    have : x.length < (d - 1) * s + 1 := by exact_mod_cast h
    omega
  have hs' : (1 : Int) ≤ s := by exact_mod_cast hs
  simp [ordInit, ordBaseInit, bind, Except.bind, pure, Except.pure, PyArg.intGe, PyArg.val, h3, hs']

theorem windows_ne_nil {x : List α} {d s : Nat} (hn : (d - 1) * s < x.length) : windows x d s ≠ [] := by
  intro h
  have := windows_length x d s
  rw [h] at this
  simp at this
  omega

/-- the sequence of Lehmer codes of a series -/
def ordCodes (q : Argsort α) (x : List α) (d s : Nat) : List Int :=
  (windows x d s).map (fun w => (lehmer (sortFun q false w) : Int))

theorem ordCross_codes (q : Argsort α) (x y : List α) {d s : Nat} (hd : 1 ≤ d) (hd' : d ≤ 20) (hs : 1 ≤ s)
    (hx : (d - 1) * s < x.length) (hy : (d - 1) * s < y.length) (stable : Bool) {b : Base} (hb : b.Valid) :
    ordEntropy q [.arr1 x, .arr1 y] { dim := .int d, step := .int s, stable := stable } b =
      .ok (crossEntropy (ordCodes q x d s) (ordCodes q y d s) / b.ln) := by
  unfold ordEntropy
  simp only [ordInit_pair x y hd hs hx stable, bind, Except.bind, ordCross, symbolizeInt_ok q x hd hd' hs hx,
    symbolizeInt_ok q y hd hd' hs hy]
  rw [fromData_ok (by simpa using windows_ne_nil hx), fromData_ok (by simpa using windows_ne_nil hy)]
  simp only
  exact discreteCross_ok _ _ hb

theorem ordCodes_congr (q : Argsort α) {x y : List α} {d s : Nat} (hx : TieFree x d s)
    (hy : TieFree y d s) {v w : List α} (hv : v ∈ windows x d s) (hw : w ∈ windows y d s) :
    ((lehmer (sortFun q false w) : Int) = (lehmer (sortFun q false v) : Int)) ↔ rankPattern w = rankPattern v := by
  rw [rankPattern_eq_iff, ← sortFun_eq_iff q false (by rw [mem_windows_length hv, mem_windows_length hw]) (hy w hw) (hx v hv)]
  rw [Nat.cast_inj]
  refine ⟨fun h => ?_, fun h => by rw [h]⟩
  exact lehmer_inj ((sortFun_perm_of_mem q false hw).trans (sortFun_perm_of_mem q false hv).symm) h

end

end Verif
