import Verif.Lemmas.TE2

/-! # Lemmas: value of the transfer-entropy estimators -/

namespace Verif

open Spec

/-- plug-in (`false`) or Miller–Madow (`true`) entropy of a sample -/
noncomputable def hSpec {α : Type} [DecidableEq α] (mm : Bool) (xs : List α) : ℝ :=
  if mm then millerMadow xs else entropy xs

theorem hSpec_map_congr {Ω α β : Type} [DecidableEq α] [DecidableEq β] (mm : Bool) (ws : List Ω)
    (f : Ω → α) (g : Ω → β) (h : ∀ u ∈ ws, ∀ v ∈ ws, (f u = f v ↔ g u = g v)) :
    hSpec mm (ws.map f) = hSpec mm (ws.map g) := by
  unfold hSpec millerMadow
  rw [entropy_map_congr ws f g h, card_map_congr ws f g h]
  simp

/-- the entropy estimator of the family -/
noncomputable def hFamily (b : Base) (mm : Bool) : HEst := if mm then millerMadowH b else pluginH b

theorem hFamily_global {b : Base} (hb : b.Valid) (mm : Bool) (xs : List Int) :
    (hFamily b mm).globalVal (mkData xs) = .ok (hSpec mm xs / b.ln) := by
  cases mm
  · simpa [hFamily, hSpec, pluginH] using discreteSimple_ok hb
  · simpa [hFamily, hSpec, millerMadowH] using mmSimple_ok xs hb

theorem hFamily_consistent {b : Base} (hb : b.Valid) (mm : Bool) : (hFamily b mm).Consistent := by
  cases mm
  · simpa [hFamily] using pluginH_consistent hb
  · simpa [hFamily] using millerMadowH_consistent hb

/-- codes of the rows of a two-dimensional array -/
def rowCodes (rows : List (List Int)) : List Int := (npInverse rows).map Int.ofNat

theorem rowCodes_eq (rows : List (List Int)) :
    rowCodes rows = rows.map (Int.ofNat ∘ npPos rows) := by
  rw [rowCodes, npInverse, List.map_map]

theorem rowCodes_length (rows : List (List Int)) : (rowCodes rows).length = rows.length := by
  simp [rowCodes]

theorem rowCodes_inj (rows : List (List Int)) {u v : List Int} (hu : u ∈ rows) (hv : v ∈ rows) :
    (Int.ofNat ∘ npPos rows) u = (Int.ofNat ∘ npPos rows) v ↔ u = v := by
  simp only [Function.comp, Int.ofNat.injEq]
  exact npPos_inj hu hv

theorem hSpec_rowCodes (mm : Bool) (rows : List (List Int)) : hSpec mm (rowCodes rows) = hSpec mm rows := by
  rw [rowCodes_eq]
  have := hSpec_map_congr mm rows (Int.ofNat ∘ npPos rows) id (fun u hu v hv => rowCodes_inj rows hu hv)
  rw [List.map_id] at this
  exact this

theorem hFamily_entropy_arr2 {b : Base} (hb : b.Valid) (mm : Bool) {rows : List (List Int)} (h : rows ≠ []) :
    (hFamily b mm).entropy (.arr2 rows) = .ok (hSpec mm rows / b.ln) := by
  simp only [HEst.entropy, hConstruct_arr2 h, bind, Except.bind]
  rw [← hSpec_rowCodes]
  exact hFamily_global hb mm _

theorem cmiNdInt_pair_rows (xs ys : List (List Int)) (z : List Int) (h1 : xs.length = ys.length)
    (h2 : ys.length = z.length) (hne : xs ≠ []) (hov : xs.length ^ 2 < 2 ^ 64) {b : Base} (hb : b.Valid) :
    cmiNdInt (logBase b) [xs, ys] z none = .ok (Spec.cmi xs ys z / b.ln) := by
  convert cmiNdInt_pair xs ys z h1 h2 hne hov hb

theorem cmiNdInt_pair_mm_rows (xs ys : List (List Int)) (z : List Int) (h1 : xs.length = ys.length)
    (h2 : ys.length = z.length) (hne : xs ≠ []) (hov : xs.length ^ 2 < 2 ^ 64) {b : Base} (hb : b.Valid) :
    cmiNdInt (logBase b) [xs, ys] z (some b) =
      .ok ((Spec.cmi xs ys z + (((xs.zip z).toFinset.card : ℝ) + (ys.zip z).toFinset.card
        - (xs.zip (ys.zip z)).toFinset.card - z.toFinset.card) / (2 * xs.length)) / b.ln) := by
  convert cmiNdInt_pair_mm xs ys z h1 h2 hne hov hb

theorem cmiNdInt_codes (R : Nat) (hR : 0 < R) (hov : R < 2 ^ 32) (f g z : Nat → List Int) {b : Base}
    (hb : b.Valid) (mm : Bool) :
    cmiNdInt (logBase b) [(List.range R).map f, (List.range R).map g] (rowCodes ((List.range R).map z))
        (if mm then some b else none) =
      .ok ((hSpec mm ((List.range R).map (fun i => (f i, z i))) +
        hSpec mm ((List.range R).map (fun i => (g i, z i))) -
        hSpec mm ((List.range R).map (fun i => (f i, g i, z i))) -
        hSpec mm ((List.range R).map z)) / b.ln) := by
  have hov' : R ^ 2 < 2 ^ 64 := by
    have : R ^ 2 < (2 ^ 32) ^ 2 := Nat.pow_lt_pow_left hov (by norm_num)
    simpa [← pow_mul] using this
  set Z := (List.range R).map z with hZ
  have hZl : Z.length = R := by simp [hZ]
  have hrl := rowCodes_length Z
  have hne : (List.range R).map f ≠ [] := by simp; omega
  have hcomp : rowCodes Z = (List.range R).map (fun i => (Int.ofNat ∘ npPos Z) (z i)) := by
    rw [rowCodes_eq, hZ, List.map_map]; rfl
  have hinj : ∀ u ∈ List.range R, ∀ v ∈ List.range R,
      ((Int.ofNat ∘ npPos Z) (z u) = (Int.ofNat ∘ npPos Z) (z v) ↔ z u = z v) := fun u hu v hv =>
    rowCodes_inj Z (List.mem_map_of_mem hu) (List.mem_map_of_mem hv)
  have hcmi : Spec.cmi ((List.range R).map f) ((List.range R).map g) (rowCodes Z) =
      Spec.cmi ((List.range R).map f) ((List.range R).map g) Z := by
    rw [rowCodes_eq, cmi_cond_congr _ _ Z _ (fun u hu v hv h => (rowCodes_inj Z hu hv).1 h) (by simp) (by simp [hZl])]
  cases mm with
  | false =>
    rw [if_neg (by simp), cmiNdInt_pair_rows _ _ _ (by simp) (by simp [hrl, hZl]) hne (by simpa using hov') hb, hcmi, hZ,
      cmi_rows]
    simp [hSpec]
  | true =>
    rw [if_pos rfl, cmiNdInt_pair_mm_rows _ _ _ (by simp) (by simp [hrl, hZl]) hne (by simpa using hov') hb, hcmi, hZ,
      cmi_rows, ← hZ, hcomp]
    simp only [zip_map_map]
    rw [card_map_congr (List.range R) (fun i => (f i, (Int.ofNat ∘ npPos Z) (z i))) (fun i => (f i, z i))
        (fun u hu v hv => by rw [Prod.mk.injEq, Prod.mk.injEq, hinj u hu v hv]),
      card_map_congr (List.range R) (fun i => (g i, (Int.ofNat ∘ npPos Z) (z i))) (fun i => (g i, z i))
        (fun u hu v hv => by rw [Prod.mk.injEq, Prod.mk.injEq, hinj u hu v hv]),
      card_map_congr (List.range R) (fun i => (f i, g i, (Int.ofNat ∘ npPos Z) (z i))) (fun i => (f i, g i, z i))
        (fun u hu v hv => by rw [Prod.mk.injEq, Prod.mk.injEq, Prod.mk.injEq, Prod.mk.injEq, hinj u hu v hv]),
      card_map_congr (List.range R) (fun i => (Int.ofNat ∘ npPos Z) (z i)) z hinj]
    simp only [hSpec, if_true, millerMadow, List.length_map, List.length_range, hZl, ← hZ]
    congr 1
    ring

/-! ### Sliced data as functions of the row number -/

theorem teSpaces_ok {α : Type} (R : Nat) (f g d : Nat → List α) :
    constructJointSpaces
        { src := (List.range R).map g, dest := (List.range R).map d, fut := (List.range R).map f } =
      .ok { joint := (List.range R).map (fun i => g i ++ d i ++ f i)
            destPast := (List.range R).map d
            marginal1 := (List.range R).map (fun i => g i ++ d i)
            marginal2 := (List.range R).map (fun i => d i ++ f i) } := by
  have h1 := concatRows_ok R g [d, f]
  have h2 := concatRows_ok R g [d]
  have h3 := concatRows_ok R d [f]
  simp only [List.map_cons, List.map_nil, List.flatten_cons, List.flatten_nil, List.append_nil] at h1 h2 h3
  simp only [constructJointSpaces, Option.toList, List.append_nil, h1, h2, h3, bind, Except.bind, pure, Except.pure,
    List.append_assoc]

theorem cteSpaces_ok {α : Type} (R : Nat) (f g d c : Nat → List α) :
    constructJointSpaces
        { src := (List.range R).map g, dest := (List.range R).map d, fut := (List.range R).map f,
          cond := some ((List.range R).map c) } =
      .ok { joint := (List.range R).map (fun i => g i ++ d i ++ f i ++ c i)
            destPast := (List.range R).map (fun i => d i ++ c i)
            marginal1 := (List.range R).map (fun i => g i ++ d i ++ c i)
            marginal2 := (List.range R).map (fun i => d i ++ f i ++ c i) } := by
  have h1 := concatRows_ok R g [d, f, c]
  have h2 := concatRows_ok R g [d, c]
  have h3 := concatRows_ok R d [f, c]
  have h4 := concatRows_ok R d [c]
  simp only [List.map_cons, List.map_nil, List.flatten_cons, List.flatten_nil, List.append_nil] at h1 h2 h3 h4
  simp only [constructJointSpaces, Option.toList, List.cons_append, List.nil_append, h1, h2, h3, h4, bind, Except.bind,
    pure, Except.pure, List.append_assoc]

theorem combinedTE_none (R : Nat) (f g d : Nat → List Int) (lg : ℝ → Except Exc ℝ) (mm : Option Base) :
    combinedTE lg { src := (List.range R).map g, dest := (List.range R).map d, fut := (List.range R).map f } mm =
      cmiNdInt lg [(List.range R).map f, (List.range R).map g] (rowCodes ((List.range R).map d)) mm := by
  simp only [combinedTE, reduceJointSpace, bind, Except.bind, rowCodes]

theorem combinedTE_cond (R : Nat) (f g d c : Nat → List Int) (lg : ℝ → Except Exc ℝ) (mm : Option Base) :
    combinedTE lg
        { src := (List.range R).map g, dest := (List.range R).map d, fut := (List.range R).map f,
          cond := some ((List.range R).map c) } mm =
      cmiNdInt lg [(List.range R).map f, (List.range R).map g]
        (rowCodes ((List.range R).map (fun i => d i ++ c i))) mm := by
  have h4 := concatRows_ok R d [c]
  simp only [List.map_cons, List.map_nil, List.flatten_cons, List.flatten_nil, List.append_nil] at h4
  simp only [combinedTE, reduceJointSpace, h4, bind, Except.bind, rowCodes]

/-- generic combination on the four spaces -/
theorem generic_spaces {est : HEst} (h : est.Consistent ∨ est.GlobalOnly) (R : Nat) (hR : 0 < R)
    (m2 m1 j dp : Nat → List Int) :
    ∃ h2 h1 hj hd, est.entropy (.arr2 ((List.range R).map m2)) = .ok h2 ∧
      est.entropy (.arr2 ((List.range R).map m1)) = .ok h1 ∧
      est.entropy (.arr2 ((List.range R).map j)) = .ok hj ∧
      est.entropy (.arr2 ((List.range R).map dp)) = .ok hd ∧
      (do
        let a ← hConstruct (.arr2 ((List.range R).map m2))
        let b ← hConstruct (.arr2 ((List.range R).map m1))
        let c ← hConstruct (.arr2 ((List.range R).map j))
        let d ← hConstruct (.arr2 ((List.range R).map dp))
        combineH est [a, b] [c, d]) = .ok (h2 + h1 - hj - hd) := by
  have hne : ∀ f : Nat → List Int, (List.range R).map f ≠ [] := fun f => by simp; omega
  have hlen : ∀ f : Nat → List Int, (rowCodes ((List.range R).map f)).length = R := fun f => by
    simp [rowCodes_length]
  obtain ⟨gs, ms, e1, e2, e3⟩ := HEst.combine h hR
    [rowCodes ((List.range R).map m2), rowCodes ((List.range R).map m1)]
    [rowCodes ((List.range R).map j), rowCodes ((List.range R).map dp)] (by simp) (by simp [hlen]) (by simp [hlen])
  have hE : ∀ f : Nat → List Int, est.entropy (.arr2 ((List.range R).map f)) =
      est.globalVal (mkData (rowCodes ((List.range R).map f))) := fun f => by
    simp only [HEst.entropy, hConstruct_arr2 (hne f), bind, Except.bind, rowCodes]
  simp only [List.map_cons, List.map_nil, List.mapM_cons, List.mapM_nil, bind, Except.bind, pure, Except.pure] at e1 e2 e3
  simp only [hE]
  cases k1 : est.globalVal (mkData (rowCodes ((List.range R).map m2))) with
  | error e => rw [k1] at e1; simp at e1
  | ok a =>
  cases k2 : est.globalVal (mkData (rowCodes ((List.range R).map m1))) with
  | error e => rw [k1, k2] at e1; simp at e1
  | ok b =>
  cases k3 : est.globalVal (mkData (rowCodes ((List.range R).map j))) with
  | error e => rw [k3] at e2; simp at e2
  | ok c =>
  cases k4 : est.globalVal (mkData (rowCodes ((List.range R).map dp))) with
  | error e => rw [k3, k4] at e2; simp at e2
  | ok d =>
  rw [k1, k2] at e1
  rw [k3, k4] at e2
  simp only [Except.ok.injEq] at e1 e2
  refine ⟨a, b, c, d, rfl, rfl, rfl, rfl, ?_⟩
  simp only [hConstruct_arr2 (hne _), bind, Except.bind]
  refine e3.trans ?_
  rw [← e1, ← e2]
  simp only [List.sum_cons, List.sum_nil]
  congr 1
  ring

end Verif
