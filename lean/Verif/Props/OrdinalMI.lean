import Verif.Model.OrdinalMI
import Verif.Props.Ordinal2
import Verif.Props.StatTest3

/-! # C56: ordinal mutual information -/

namespace Verif

open Spec

section
variable {Ω α β γ α' β' γ' : Type} [DecidableEq α] [DecidableEq β] [DecidableEq γ]
  [DecidableEq α'] [DecidableEq β'] [DecidableEq γ']

/-- mutual information does not depend on how the values are named -/
theorem mi_relabel (ws : List Ω) (f : Ω → α) (f' : Ω → α') (g : Ω → β) (g' : Ω → β')
    (hf : ∀ u ∈ ws, ∀ v ∈ ws, (f u = f v ↔ f' u = f' v))
    (hg : ∀ u ∈ ws, ∀ v ∈ ws, (g u = g v ↔ g' u = g' v)) :
    mi (ws.map f) (ws.map g) = mi (ws.map f') (ws.map g') := by
  rw [mi_map, mi_map, entropy_map_congr ws f f' hf, entropy_map_congr ws g g' hg,
    entropy_map_congr ws (fun w => (f w, g w)) (fun w => (f' w, g' w)) (fun u hu v hv => by
      simp only [Prod.mk.injEq]; rw [hf u hu v hv, hg u hu v hv])]

theorem cmi_relabel (ws : List Ω) (f : Ω → α) (f' : Ω → α') (g : Ω → β) (g' : Ω → β') (h : Ω → γ)
    (h' : Ω → γ') (hf : ∀ u ∈ ws, ∀ v ∈ ws, (f u = f v ↔ f' u = f' v))
    (hg : ∀ u ∈ ws, ∀ v ∈ ws, (g u = g v ↔ g' u = g' v))
    (hh : ∀ u ∈ ws, ∀ v ∈ ws, (h u = h v ↔ h' u = h' v)) :
    cmi (ws.map f) (ws.map g) (ws.map h) = cmi (ws.map f') (ws.map g') (ws.map h') := by
  rw [cmi_map, cmi_map, entropy_map_congr ws h h' hh,
    entropy_map_congr ws (fun w => (f w, h w)) (fun w => (f' w, h' w)) (fun u hu v hv => by
      simp only [Prod.mk.injEq]; rw [hf u hu v hv, hh u hu v hv]),
    entropy_map_congr ws (fun w => (g w, h w)) (fun w => (g' w, h' w)) (fun u hu v hv => by
      simp only [Prod.mk.injEq]; rw [hg u hu v hv, hh u hu v hv]),
    entropy_map_congr ws (fun w => (f w, g w, h w)) (fun w => (f' w, g' w, h' w)) (fun u hu v hv => by
      simp only [Prod.mk.injEq]; rw [hf u hu v hv, hg u hu v hv, hh u hu v hv])]

end

variable {α : Type} [LinearOrder α] [Inhabited α]

/-- the ordinal patterns of a series as ranks, in time order (textbook symbolisation) -/
def Spec.ordPatterns (x : List α) (d s : Nat) : List (List Nat) := (delayVectors x d s).map rankPattern

/-- window number `i` -/
def win (x : List α) (d s i : Nat) : List α := (List.range d).map (fun j => x.getD (i + j * s) default)

omit [LinearOrder α] in
theorem delayVectors_win (x : List α) (d s : Nat) :
    delayVectors x d s = (List.range (x.length - (d - 1) * s)).map (win x d s) := rfl

theorem ordPatterns_win (x : List α) (d s : Nat) :
    ordPatterns x d s = (List.range (x.length - (d - 1) * s)).map (fun i => rankPattern (win x d s i)) := by
  unfold ordPatterns
  rw [delayVectors_win, List.map_map]; rfl

omit [LinearOrder α] in
theorem win_mem {x : List α} {d s i : Nat} (hi : i < x.length - (d - 1) * s) :
    win x d s i ∈ delayVectors x d s := by
  rw [delayVectors_win]; exact List.mem_map_of_mem (List.mem_range.2 hi)

/-- the symbols are a naming of the argsort results -/
theorem ordSymbols_ok (q : Argsort α) (x : List α) {d s : Nat} (hd : 1 ≤ d) (hs : 1 ≤ s)
    (hn : (d - 1) * s < x.length) (stable : Bool) :
    ∃ code : Nat → Int, ordSymbols q d s stable x = .ok ((List.range (x.length - (d - 1) * s)).map code) ∧
      ∀ i j, i < x.length - (d - 1) * s → j < x.length - (d - 1) * s →
        (code i = code j ↔ sortFun q stable (win x d s i) = sortFun q stable (win x d s j)) := by
  set rows : List (List Int) := (windows x d s).map (fun w => (sortFun q stable w).map Int.ofNat) with hrows
  have hmem : ∀ i, i < x.length - (d - 1) * s → (sortFun q stable (win x d s i)).map Int.ofNat ∈ rows := by
    intro i hi
    rw [hrows]
    exact List.mem_map_of_mem (f := fun w => (sortFun q stable w).map Int.ofNat) (win_mem hi)
  refine ⟨fun i => (Int.ofNat ∘ npPos rows) ((sortFun q stable (win x d s i)).map Int.ofNat), ?_, ?_⟩
  · unfold ordSymbols
    rw [symbolize_ok q x hd hs hn stable]
    simp only [bind, Except.bind, reduceJointSpace, List.map_map]
    have : ((fun p : List Nat => p.map Int.ofNat) ∘ sortFun q stable)
        = (fun w => (sortFun q stable w).map Int.ofNat) := rfl
    rw [this, ← hrows, npInverse, List.map_map, hrows]
    unfold windows
    rw [List.map_map, List.map_map]
    rfl
  · intro i j hi hj
    rw [rowCodes_inj rows (hmem i hi) (hmem j hj)]
    exact ⟨fun h => (List.map_injective_iff.2 Int.ofNat_injective) h, fun h => by rw [h]⟩

/-- for tie-free windows the argsort results agree exactly when the rank patterns do -/
theorem sortFun_iff_rank (q : Argsort α) (stable : Bool) {x : List α} {d s i j : Nat} (ht : TieFree x d s)
    (hi : i < x.length - (d - 1) * s) (hj : j < x.length - (d - 1) * s) :
    sortFun q stable (win x d s i) = sortFun q stable (win x d s j) ↔
      rankPattern (win x d s i) = rankPattern (win x d s j) := by
  rw [rankPattern_eq_iff]
  exact sortFun_eq_iff q stable (by simp [win]) (ht _ (win_mem hi)) (ht _ (win_mem hj))

theorem ordPairChecks_ok {lo : Int} {n d s : Nat} (hlo : lo ≤ s) (hn : (d - 1) * s < n) (hd : 1 ≤ d) :
    ordPairChecks lo n (.int d) (.int s) = .ok ((d : Int), (s : Int)) := by
  have h3 : ¬ ((n : Int) < ((d : Int) - 1) * s + 1) := by
    have : ((d : Int) - 1) = ((d - 1 : Nat) : Int) := by omega
    rw [this]
    have : (((d - 1) * s : Nat) : Int) < n := by exact_mod_cast hn
    push_cast at this ⊢
    omega
  simp [ordPairChecks, PyArg.intGe, PyArg.val, hlo, h3]

theorem miInit_pair {x y : List α} (h : x.length = y.length) :
    miInit [x, y] (some 0) = .ok [x, y] := by simp [miInit, h]

/-- the constructor succeeds on two aligned series, and the symbols are namings of the argsort results -/
theorem ordMIInit_pair (q : Argsort α) (x y : List α) (hxy : x.length = y.length) {d s : Nat} (hd : 1 ≤ d)
    (hs : 1 ≤ s) (hn : (d - 1) * s < x.length) (stable : Bool) :
    ∃ cx cy : Nat → Int,
      ordMIInit q [x, y] { dim := .int d, step := .int s, stable := stable } (some 0) =
        .ok { dim := d, symbols := [(List.range (x.length - (d - 1) * s)).map cx,
                                    (List.range (x.length - (d - 1) * s)).map cy] } ∧
      (∀ i j, i < x.length - (d - 1) * s → j < x.length - (d - 1) * s →
        (cx i = cx j ↔ sortFun q stable (win x d s i) = sortFun q stable (win x d s j))) ∧
      (∀ i j, i < x.length - (d - 1) * s → j < x.length - (d - 1) * s →
        (cy i = cy j ↔ sortFun q stable (win y d s i) = sortFun q stable (win y d s j))) := by
  obtain ⟨cx, hcx, hcx'⟩ := ordSymbols_ok q x hd hs hn stable
  obtain ⟨cy, hcy, hcy'⟩ := ordSymbols_ok q y hd hs (hxy ▸ hn) stable
  rw [← hxy] at hcy hcy'
  refine ⟨cx, cy, ?_, hcx', hcy'⟩
  unfold ordMIInit
  simp only [miInit_pair hxy, bind, Except.bind, List.headD_cons,
    ordPairChecks_ok (lo := 1) (n := x.length) (by exact_mod_cast hs) hn hd]
  rw [List.mapM_cons, List.mapM_cons, List.mapM_nil]
  simp only [hcx, hcy, bind, Except.bind, pure, Except.pure]

/-- value of the ordinal mutual information in terms of the argsort results -/
theorem ordMI_value (q : Argsort α) (x y : List α) (hxy : x.length = y.length) {d s : Nat} (hd : 1 ≤ d)
    (hs : 1 ≤ s) (hn : (d - 1) * s < x.length) (hov : x.length < 2 ^ 32) (stable : Bool) {b : Base}
    (hb : b.Std) :
    ordMI q [x, y] { dim := .int d, step := .int s, stable := stable } (some 0) b =
      .ok (Spec.mi ((delayVectors x d s).map (sortFun q stable)) ((delayVectors y d s).map (sortFun q stable))
        / b.ln) := by
  obtain ⟨cx, cy, hi, hcx, hcy⟩ := ordMIInit_pair q x y hxy hd hs hn stable
  set R := x.length - (d - 1) * s with hR
  have hRpos : 0 < R := by omega
  have hmi : Spec.mi ((delayVectors x d s).map (sortFun q stable)) ((delayVectors y d s).map (sortFun q stable))
      = Spec.mi ((List.range R).map cx) ((List.range R).map cy) := by
    rw [delayVectors_win, delayVectors_win, ← hxy, ← hR, List.map_map, List.map_map]
    exact mi_relabel _ _ _ _ _
      (fun u hu v hv => (hcx u v (List.mem_range.1 hu) (List.mem_range.1 hv)).symm)
      (fun u hu v hv => (hcy u v (List.mem_range.1 hu) (List.mem_range.1 hv)).symm)
  unfold ordMI
  simp only [hi, bind, Except.bind, ordMICalculate]
  by_cases h1 : d = 1
  · subst h1
    rw [if_pos (by norm_num)]
    have hconst : ∀ a ∈ (List.range R).map cx, ∀ c ∈ (List.range R).map cx, a = c := by
      intro a ha c hc
      obtain ⟨i, hi, rfl⟩ := List.mem_map.1 ha
      obtain ⟨j, hj, rfl⟩ := List.mem_map.1 hc
      rw [hcx i j (List.mem_range.1 hi) (List.mem_range.1 hj)]
      have hone : ∀ w : List α, w.length = 1 → sortFun q stable w = [0] := by
        intro w hw
        have := (sortFun_isArgsort q stable w).perm
        rw [hw] at this
        exact List.perm_singleton.1 this
      rw [hone _ (by simp [win]), hone _ (by simp [win])]
    rw [hmi, mi_const_left (by simp) hconst, zero_div]
  · rw [if_neg (by exact_mod_cast h1), miGlobal]
    rw [mi2dInt_std _ _ (by simp) (by simp; omega) ?_ hb, hmi]
    have hle : R < 2 ^ 32 := by omega
    have : R ^ 2 < (2 ^ 32) ^ 2 := Nat.pow_lt_pow_left hle (by norm_num)
    simpa [← pow_mul] using this

/-- **C56** For tie-free series the ordinal mutual information is the textbook mutual information of the
two sequences of ordinal patterns. -/
theorem C56_ordinal_mi_is_textbook (q : Argsort α) (x y : List α) (hxy : x.length = y.length) (d s : Nat)
    (hd : 1 ≤ d) (hs : 1 ≤ s) (hn : (d - 1) * s < x.length) (hov : x.length < 2 ^ 32) (stable : Bool)
    (htx : TieFree x d s) (hty : TieFree y d s) (b : Base) (hb : b.Std) :
    ordMI q [x, y] { dim := .int d, step := .int s, stable := stable } (some 0) b =
      .ok (Spec.mi (ordPatterns x d s) (ordPatterns y d s) / b.ln) := by
  rw [ordMI_value q x y hxy hd hs hn hov stable hb]
  congr 2
  rw [ordPatterns_win, ordPatterns_win, delayVectors_win, delayVectors_win, ← hxy, List.map_map, List.map_map]
  refine mi_relabel _ _ _ _ _ (fun u hu v hv => ?_) (fun u hu v hv => ?_)
  · exact sortFun_iff_rank q stable htx (List.mem_range.1 hu) (List.mem_range.1 hv)
  · exact sortFun_iff_rank q stable hty (by rw [← hxy]; exact List.mem_range.1 hu)
      (by rw [← hxy]; exact List.mem_range.1 hv)

example := C56_ordinal_mi_is_textbook stableSort [3, 1, 2, 5, 4, 0] [2, 7, 1, 5, 0, 3] rfl 3 1 (by decide) (by decide) (by decide) (by decide) false (by unfold TieFree delayVectors; decide) (by unfold TieFree delayVectors; decide) (.num 2) (by norm_num [Base.Std])

end Verif
