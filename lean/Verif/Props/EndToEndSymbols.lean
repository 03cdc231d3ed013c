import Verif.Lemmas.EndToEndSymbols
import Verif.Props.EndToEndSym2

/-!
# C93: float arrays given to the estimators of discrete data are sequences of symbols
-/

namespace Verif

open Spec

variable {W : World} {a : PyName} {kw : Kw} {b : Base} {cond : CondKw PyData} {N : Nat} {cols : List (List Int)} {z : List Int}
  {data : List PyData} {dz : PyData} {f : Fam}

/-- **C93** every float array is a sequence of symbols. -/
theorem C93_symbols (ys : List ℝ) : ∃ v : List Int, Symbols v (.reals ys) := by
  refine ⟨ys.map (rankIn ys), fun i => (ys.find? (fun y => decide (rankIn ys y = i))).getD 0, ?_, ?_⟩
  · have key : ∀ y ∈ ys, (ys.find? (fun y' => decide (rankIn ys y' = rankIn ys y))).getD 0 = y := by
      intro y hy
      cases e : ys.find? (fun y' => decide (rankIn ys y' = rankIn ys y)) with
      | none => exact absurd (List.find?_eq_none.1 e y hy) (by simp)
      | some y' =>
        have h1 := List.find?_some e
        exact rankIn_inj (List.mem_of_find?_eq_some e) hy (by simpa using h1)
    intro i hi j hj h
    obtain ⟨x, hx, rfl⟩ := List.mem_map.1 hi
    obtain ⟨y, hy, rfl⟩ := List.mem_map.1 hj
    have h : x = y := by simpa only [key x hx, key y hy] using h
    rw [h]
  · simp only [PyData.toSeries, List.map_map, Option.some.injEq]
    conv_lhs => rw [← List.map_id ys]
    refine List.map_congr_left fun y hy => ?_
    simp only [id, Function.comp]
    cases e : ys.find? (fun y' => decide (rankIn ys y' = rankIn ys y)) with
    | none => exact absurd (List.find?_eq_none.1 e y hy) (by simp)
    | some y' =>
      have h1 := List.find?_some e
      exact (rankIn_inj (List.mem_of_find?_eq_some e) hy (by simpa using h1)).symm

/-! ## Evaluation -/

theorem symb_world_other (e : Est) (hf : e.cls.fam.isSymbolic = true) (hn : e.normalizes = false) {e' : Est} (hr : e.recoded = some e') :
    W.symbols.other e = Est.result W e' := by
  simp [World.symbols, Est.symVal, hf, hn, hr]

theorem symb_result_mi {cols' : List (List Int)} {p : Kw} (hf : f.isSymbolic = true) (hn : Est.normalizes ⟨⟨.mi, f⟩, data, none, p⟩ = false)
    (hr : Est.recoded ⟨⟨.mi, f⟩, data, none, p⟩ = some ⟨⟨.mi, f⟩, cols'.map .ints, none, p⟩) (hx : HasReals data) :
    Est.result W.symbols ⟨⟨.mi, f⟩, data, none, p⟩ = Est.result W ⟨⟨.mi, f⟩, cols'.map .ints, none, p⟩ := by
  have e : Est.mi W.symbols ⟨⟨.mi, f⟩, data, none, p⟩ = none := by
    unfold Est.mi
    cases f <;> simp [Fam.isSymbolic] at hf <;> simp [HasReals.toInts hx]
  rw [← symb_world_other (W := W) _ hf hn hr]
  conv_lhs => unfold Est.result
  simp only [e, Option.getD_none]

theorem symb_result_cmi {cols' : List (List Int)} {z' : List Int} {p : Kw} (hf : f.isSymbolic = true)
    (hn : Est.normalizes ⟨⟨.cmi, f⟩, data, some dz, p⟩ = false)
    (hr : Est.recoded ⟨⟨.cmi, f⟩, data, some dz, p⟩ = some ⟨⟨.cmi, f⟩, cols'.map .ints, some (.ints z'), p⟩) (hx : HasReals (dz :: data)) :
    Est.result W.symbols ⟨⟨.cmi, f⟩, data, some dz, p⟩ = Est.result W ⟨⟨.cmi, f⟩, cols'.map .ints, some (.ints z'), p⟩ := by
  have e : Est.cmi W.symbols ⟨⟨.cmi, f⟩, data, some dz, p⟩ = none := by
    obtain ⟨ys, hy⟩ := hx
    unfold Est.cmi
    rcases List.mem_cons.1 hy with rfl | hy
    · cases f <;> simp [Fam.isSymbolic] at hf <;> simp [PyData.toInts]
    · cases f <;> simp [Fam.isSymbolic] at hf <;> simp [HasReals.toInts ⟨ys, hy⟩]
  rw [← symb_world_other (W := W) _ hf hn hr]
  conv_lhs => unfold Est.result
  simp only [e, Option.getD_none]

theorem symb_pair_none {cls : EstClass} {c : Option PyData} {p : Kw} {x y : PyData} (h : HasReals [x, y]) :
    Est.pair ⟨cls, [x, y], c, p⟩ PyData.toInts = none := by
  obtain ⟨ys, hy⟩ := h
  simp only [List.mem_cons, List.not_mem_nil, or_false] at hy
  unfold Est.pair
  rcases hy with rfl | rfl
  · simp [PyData.toInts]
  · cases x <;> simp [PyData.toInts]

theorem symb_result_te {x y : PyData} {x' y' : List Int} {p : Kw} (hf : f.isSymbolic = true)
    (hr : Est.recoded ⟨⟨.te, f⟩, [x, y], none, p⟩ = some ⟨⟨.te, f⟩, [.ints x', .ints y'], none, p⟩) (hx : HasReals [x, y]) :
    Est.result W.symbols ⟨⟨.te, f⟩, [x, y], none, p⟩ = Est.result W ⟨⟨.te, f⟩, [.ints x', .ints y'], none, p⟩ := by
  have e : Est.teVal W.symbols ⟨⟨.te, f⟩, [x, y], none, p⟩ = none := by
    unfold Est.teVal
    cases f <;> simp [Fam.isSymbolic] at hf <;> simp [symb_pair_none hx]
  rw [← symb_world_other (W := W) _ hf rfl hr]
  conv_lhs => unfold Est.result
  simp only [e, Option.getD_none]

theorem symb_result_cte {x y : PyData} {x' y' z' : List Int} {p : Kw} (hf : f.isSymbolic = true)
    (hr : Est.recoded ⟨⟨.cte, f⟩, [x, y], some dz, p⟩ = some ⟨⟨.cte, f⟩, [.ints x', .ints y'], some (.ints z'), p⟩) (hx : HasReals [dz, x, y]) :
    Est.result W.symbols ⟨⟨.cte, f⟩, [x, y], some dz, p⟩ = Est.result W ⟨⟨.cte, f⟩, [.ints x', .ints y'], some (.ints z'), p⟩ := by
  have e : Est.cteVal W.symbols ⟨⟨.cte, f⟩, [x, y], some dz, p⟩ = none := by
    obtain ⟨ys, hy⟩ := hx
    unfold Est.cteVal
    rcases List.mem_cons.1 hy with rfl | hy
    · cases f <;> simp [Fam.isSymbolic] at hf <;> simp [PyData.toInts]
    · cases f <;> simp [Fam.isSymbolic] at hf <;> simp [symb_pair_none ⟨ys, hy⟩]
  rw [← symb_world_other (W := W) _ hf rfl hr]
  conv_lhs => unfold Est.result
  simp only [e, Option.getD_none]

theorem symb_result_h {d : PyData} {d' : PyData} {p : Kw} (hf : f.isSymbolic = true)
    (hr : Est.recoded ⟨⟨.h, f⟩, [d], none, p⟩ = some ⟨⟨.h, f⟩, [d'], none, p⟩) (hx : d.toEInput = none) :
    Est.result W.symbols ⟨⟨.h, f⟩, [d], none, p⟩ = Est.result W ⟨⟨.h, f⟩, [d'], none, p⟩ := by
  have e : Est.entropy W.symbols ⟨⟨.h, f⟩, [d], none, p⟩ = none := by
    unfold Est.entropy
    cases f <;> simp [Fam.isSymbolic] at hf <;> simp [hx]
  rw [← symb_world_other (W := W) _ hf rfl hr]
  conv_lhs => unfold Est.result
  simp only [e, Option.getD_none]

theorem symb_required {k : Kind} (hf : f.isSymbolic = true) (ha : f = .bayes → kw "alpha" ≠ none) : ∀ r ∈ requiredKw k f, kw r ≠ none := by
  cases f <;> simp [Fam.isSymbolic] at hf <;> cases k <;> simp_all [requiredKw]

/-! ## The public functions with the coded data -/

theorem symb_coded_mi (h : Call W .mi f a kw b) (hf : f.isSymbolic = true) (ha : f = .bayes → kw "alpha" ≠ none) (hc : cond.isVal = false)
    (hn : f ≠ .discrete → f ≠ .millerMadow → kwOr kw "normalize" (.bool false) = .bool false)
    (h2 : 2 ≤ cols.length) (hs : List.Forall₂ Symbols cols data) (hx : HasReals data) :
    ∃ cols', List.Forall₂ Relabelled cols cols' ∧ imMI W.symbols data a cond kw = imMI W (cols'.map .ints) a cond kw := by
  obtain ⟨cols', r, e⟩ := symb_recoded (cls := ⟨.mi, f⟩) hs
  have l1 : cols'.length = cols.length := r.length_eq.symm
  refine ⟨cols', r, symb_mi h.name hc (by rw [List.length_map, l1]; exact h2) (symb_required hf ha) h.accepted
    (by rw [List.length_map, l1, hs.length_eq]) fun p hr ho => ?_⟩
  refine symb_result_mi hf ?_ (e p) hx
  by_cases h1 : f = .discrete
  · subst h1; rfl
  by_cases h2 : f = .millerMadow
  · subst h2; rfl
  have hp : p "normalize" = some (.bool false) := by
    rw [ho ("normalize", .bool false) (by cases f <;> simp [Fam.isSymbolic] at hf h1 h2 <;> simp [optionalKw, ownKw, normalizeKw, commonKw]), hn h1 h2]
  cases f <;> simp [Fam.isSymbolic] at hf h1 h2 <;> simp [Est.normalizes, Est.get, hp, PyVal.toBool]

theorem symb_coded_cmi (h : Call W .cmi f a kw b) (hf : f.isSymbolic = true) (ha : f = .bayes → kw "alpha" ≠ none)
    (hn : f ≠ .discrete → f ≠ .millerMadow → kwOr kw "normalize" (.bool false) = .bool false)
    (h2 : 2 ≤ cols.length) (hs : List.Forall₂ Symbols cols data) (hz : Symbols z dz) (hx : HasReals (dz :: data)) :
    ∃ cols' z', List.Forall₂ Relabelled cols cols' ∧ Relabelled z z' ∧
      imCMI W.symbols data a (.val dz) kw = imCMI W (cols'.map .ints) a (.val (.ints z')) kw ∧
      imMI W.symbols data a (.val dz) kw = imMI W (cols'.map .ints) a (.val (.ints z')) kw := by
  obtain ⟨cols', z', r, rz, e⟩ := symb_recoded_cond (cls := ⟨.cmi, f⟩) hs hz
  have l1 : cols'.length = cols.length := r.length_eq.symm
  refine ⟨cols', z', r, rz, symb_cmi h.name (by rw [List.length_map, l1]; exact h2) (symb_required hf ha) h.accepted
    (by rw [List.length_map, l1, hs.length_eq]) fun p hr ho => ?_⟩
  refine symb_result_cmi hf ?_ (e p) hx
  by_cases h1 : f = .discrete
  · subst h1; rfl
  by_cases h2 : f = .millerMadow
  · subst h2; rfl
  have hp : p "normalize" = some (.bool false) := by
    rw [ho ("normalize", .bool false) (by cases f <;> simp [Fam.isSymbolic] at hf h1 h2 <;> simp [optionalKw, ownKw, normalizeKw, commonKw]), hn h1 h2]
  cases f <;> simp [Fam.isSymbolic] at hf h1 h2 <;> simp [Est.normalizes, Est.get, hp, PyVal.toBool]

theorem symb_coded_te {x y : List Int} {dx dy : PyData} (h : Call W .te f a kw b) (hf : f.isSymbolic = true) (ha : f = .bayes → kw "alpha" ≠ none)
    (hc : cond.isVal = false) (hx : Symbols x dx) (hy : Symbols y dy) (hr : HasReals [dx, dy]) :
    ∃ x' y', Relabelled x x' ∧ Relabelled y y' ∧ imTE W.symbols [dx, dy] a cond kw = imTE W [.ints x', .ints y'] a cond kw := by
  obtain ⟨cols', r, e⟩ := symb_recoded (cls := ⟨.te, f⟩) (.cons hx (.cons hy .nil))
  match cols', r with
  | [x', y'], .cons rx (.cons ry .nil) =>
    exact ⟨x', y', rx, ry, symb_te h.name hc (symb_required hf ha) h.accepted fun p _ _ => symb_result_te hf (e p) hr⟩

theorem symb_coded_cte {x y : List Int} {dx dy : PyData} (h : Call W .cte f a kw b) (hf : f.isSymbolic = true) (ha : f = .bayes → kw "alpha" ≠ none)
    (hx : Symbols x dx) (hy : Symbols y dy) (hz : Symbols z dz) (hr : HasReals [dz, dx, dy]) :
    ∃ x' y' z', Relabelled x x' ∧ Relabelled y y' ∧ Relabelled z z' ∧
      imCTE W.symbols [dx, dy] a (.val dz) kw = imCTE W [.ints x', .ints y'] a (.val (.ints z')) kw ∧
      imTE W.symbols [dx, dy] a (.val dz) kw = imTE W [.ints x', .ints y'] a (.val (.ints z')) kw := by
  obtain ⟨cols', z', r, rz, e⟩ := symb_recoded_cond (cls := ⟨.cte, f⟩) (.cons hx (.cons hy .nil)) hz
  match cols', r with
  | [x', y'], .cons rx (.cons ry .nil) =>
    exact ⟨x', y', z', rx, ry, rz, symb_cte h.name (symb_required hf ha) h.accepted fun p _ _ => symb_result_cte hf (e p) hr⟩

theorem symb_coded_h {v : List Int} {ys : List ℝ} (h : Call W .h f a kw b) (hf : f.isSymbolic = true) (ha : f = .bayes → kw "alpha" ≠ none)
    (hs : RealSymbols v ys) : ∃ v', Relabelled v v' ∧ imEntropy W.symbols [.reals ys] a .absent kw = imEntropy W [.ints v'] a .absent kw := by
  obtain ⟨cols', r, e⟩ := symb_recoded (cls := ⟨.h, f⟩) (.cons hs .nil)
  match cols', r with
  | [v'], .cons rv .nil =>
    exact ⟨v', rv, symb_entropy h.name (symb_required hf ha) h.accepted rfl fun p _ _ => symb_result_h hf (e p) rfl⟩

theorem symb_series_one (rcols : List (List ℝ)) : (rcols.map KVar.one).mapM KVar.series = some rcols ∧
    (rcols.map KVar.one).filterMap KVar.series = rcols := by
  induction rcols with
  | nil => exact ⟨rfl, rfl⟩
  | cons v l ih => exact ⟨by simp [List.mapM_cons, KVar.series, ih.1], by simp [KVar.series, ih.2]⟩

theorem symb_coded_htup {rcols : List (List ℝ)} (h : Call W .h f a kw b) (hf : f.isSymbolic = true) (ha : f = .bayes → kw "alpha" ≠ none)
    (hs : List.Forall₂ RealSymbols cols rcols) :
    ∃ cols', List.Forall₂ Relabelled cols cols' ∧
      imEntropy W.symbols [.tup (rcols.map .one)] a .absent kw = imEntropy W [.intTup cols'] a .absent kw := by
  have hs' : List.Forall₂ Symbols cols (rcols.map .reals) := by
    rw [List.forall₂_map_right_iff]; exact hs
  obtain ⟨cols', e, r⟩ := symb_recodes hs' (pool := rcols.flatten) (by
    intro d hd x hx
    obtain ⟨w, hw, rfl⟩ := List.mem_map.1 hd
    exact List.mem_flatten.2 ⟨w, hw, hx⟩)
  have e2 : rcols.map (List.map (rankIn rcols.flatten)) = cols' := by
    have : ∀ l : List (List ℝ), ∀ c', (l.map PyData.reals).mapM (PyData.recode (rankIn rcols.flatten)) = some (c'.map PyData.ints) →
        l.map (List.map (rankIn rcols.flatten)) = c' := by
      intro l
      induction l with
      | nil => intro c' h; cases c' <;> simp_all
      | cons w l ih =>
        intro c' h
        rw [List.map_cons, List.mapM_cons] at h
        cases e : (l.map PyData.reals).mapM (PyData.recode (rankIn rcols.flatten)) with
        | none => simp [e, PyData.recode] at h
        | some q =>
          simp only [e, PyData.recode, bind, Option.bind, pure, Option.some.injEq] at h
          cases c' with
          | nil => simp at h
          | cons c0 c' =>
            simp only [List.map_cons, List.cons.injEq, PyData.ints.injEq] at h
            rw [List.map_cons, h.1, ih c' (by rw [e, h.2])]
    exact this rcols cols' e
  refine ⟨cols', r, symb_entropy h.name (symb_required hf ha) h.accepted rfl fun p _ _ => symb_result_h hf ?_ rfl⟩
  simp [Est.recoded, PyData.recode, PyData.numbers, (symb_series_one rcols).1, (symb_series_one rcols).2, e2]

end Verif
