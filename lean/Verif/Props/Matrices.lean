import Verif.Lemmas.EndToEndSymbols
import Verif.Lemmas.EndToEndIdent
import Verif.Props.EndToEndLocal
import Verif.Props.EndToEndEx

/-!
# C102: a two-dimensional integer array given to an entropy of discrete data is the sequence of its rows
-/

namespace Verif

open Spec

variable {W : World} {a : PyName} {kw : Kw} {b : Base} {f : Fam} {m : String}

/-- `codes` labels the rows: the same label for the same row, different labels for different rows -/
def LabelsOf (codes : List Int) (rows : List (List Int)) : Prop :=
  codes.length = rows.length ∧ ∀ s t, s < rows.length → t < rows.length → (codes[s]? = codes[t]? ↔ rows[s]? = rows[t]?)

/-- the estimators of discrete data with their own parameters given as documented -/
inductive DiscreteCall (kw : Kw) : Fam → Prop
  | simple (f : Fam) (hf : f ∈ simpleFams) : DiscreteCall kw f
  | bayes (al : AlphaArg) (K : Option Nat) (h1 : (kw "alpha").bind PyVal.toAlpha = some al) (h2 : (kwOr kw "K" .none).toOptNat = some K) :
      DiscreteCall kw .bayes
  | ansb (K : Option Int) (h : (kwOr kw "K" .none).toOptInt = some K) : DiscreteCall kw .ansb
  | nsb (K : Option Int) (h : (kwOr kw "K" .none).toOptInt = some K) : DiscreteCall kw .nsb

theorem mx_swap (h : Call W .h f a kw b) (hd : DiscreteCall kw f) {data data' : List PyData} {xs xs' : List EInput} (hl : data'.length = data.length)
    (hx : data.mapM PyData.toEInput = some xs) (hx' : data'.mapM PyData.toEInput = some xs') (he : discreteHInit xs' = discreteHInit xs) :
    imEntropy W data' a .absent kw = imEntropy W data a .absent kw ∧
      (2 ≤ data.length → imCrossEntropy W data' a .absent kw = imCrossEntropy W data a .absent kw) := by
  have hc : ∀ c : DClass, c.globalVal b xs' = c.globalVal b xs := fun c => by simp only [DClass.globalVal, he]
  have fin : ∀ {P Q P' Q' : Except Exc ℝ} {v v' : Except Exc ℝ}, (P = v ∧ (2 ≤ data.length → Q = v)) → (P' = v' ∧ (2 ≤ data'.length → Q' = v')) →
      v' = v → P' = P ∧ (2 ≤ data.length → Q' = Q) := by
    rintro P Q P' Q' v v' ⟨h1, h2⟩ ⟨h3, h4⟩ rfl
    exact ⟨h3.trans h1.symm, fun hh => (h4 (hl ▸ hh)).trans (h2 hh).symm⟩
  cases hd with
  | simple f hf =>
    simp only [simpleFams, List.mem_cons, List.not_mem_nil, or_false] at hf
    rcases hf with rfl | rfl | rfl | rfl | rfl | rfl | rfl | rfl
    · exact fin (e2e_h_discrete h.name h.accepted h.base hx) (e2e_h_discrete h.name h.accepted h.base hx') (hc _)
    · exact fin (e2e_h_millerMadow h.name h.accepted h.base hx) (e2e_h_millerMadow h.name h.accepted h.base hx') (hc _)
    · exact fin (e2e_h_grassberger h.name h.accepted h.base hx) (e2e_h_grassberger h.name h.accepted h.base hx') (hc _)
    · exact fin (e2e_h_chaoShen h.name h.accepted h.base hx) (e2e_h_chaoShen h.name h.accepted h.base hx') (hc _)
    · exact fin (e2e_h_chaoWangJost h.name h.accepted h.base hx) (e2e_h_chaoWangJost h.name h.accepted h.base hx') (hc _)
    · exact fin (e2e_h_shrink h.name h.accepted h.base hx) (e2e_h_shrink h.name h.accepted h.base hx') (hc _)
    · exact fin (e2e_h_zhang h.name h.accepted h.base hx) (e2e_h_zhang h.name h.accepted h.base hx') (hc _)
    · exact fin (e2e_h_bonachela h.name h.accepted h.base hx) (e2e_h_bonachela h.name h.accepted h.base hx') (hc _)
  | bayes al K h1 h2 => exact fin (e2e_h_bayes h.name h.accepted h1 h2 h.base hx) (e2e_h_bayes h.name h.accepted h1 h2 h.base hx') (hc _)
  | ansb K h1 => exact fin (e2e_h_ansb h.name h.accepted h1 h.base hx) (e2e_h_ansb h.name h.accepted h1 h.base hx') (hc _)
  | nsb K h1 =>
    exact fin (e2e_h_nsb h.name h.accepted h1 h.base hx) (e2e_h_nsb h.name h.accepted h1 h.base hx') (by simp only [nsbEntropy, he])

/-- local values: for all keywords -/
theorem mx_local (hn : Names W.lower .h a f) (hf : f.isSymbolic = true) {data data' : List PyData} {xs xs' : List EInput} (hl : data'.length = data.length)
    (hx : data.mapM PyData.toEInput = some xs) (hx' : data'.mapM PyData.toEInput = some xs') (he : discreteHInit xs' = discreteHInit xs)
    (hk : Asks W.lower m data none .h) : imLocal W data' none (.str m) a kw = imLocal W data none (.str m) a kw := by
  have hk' : Asks W.lower m data' none .h := by simpa only [Asks, hl] using hk
  have e : ∀ p, Est.locals W ⟨⟨.h, f⟩, data', none, p⟩ = Est.locals W ⟨⟨.h, f⟩, data, none, p⟩ := by
    intro p
    have hd : ∀ s l, discreteHLocal s l xs' = discreteHLocal s l xs := fun s l => by simp only [discreteHLocal, he]
    have g : ∀ {β : Type} (n : String) (conv : PyVal → Option β), Est.get ⟨⟨.h, f⟩, data', none, p⟩ n conv = Est.get ⟨⟨.h, f⟩, data, none, p⟩ n conv :=
      fun n conv => rfl
    have gd : Est.dclass ⟨⟨.h, f⟩, data', none, p⟩ = Est.dclass ⟨⟨.h, f⟩, data, none, p⟩ := rfl
    simp only [Est.locals]
    unfold Est.entropyLocal
    cases f <;> simp [Fam.isSymbolic] at hf <;> simp only [g, gd, hx, hx', hd, Option.bind_eq_bind, Option.bind_some]
  unfold imLocal
  simp only [asks_call (kw := kw) hk hn, asks_call (kw := kw) hk' hn, buildEst]
  have hc : ctorParams W.b0 (D := PyData) { cls := ⟨.h, f⟩, data := data', cond := condOf none, kw := factoryKw none kw .h } =
      ctorParams W.b0 { cls := ⟨.h, f⟩, data := data, cond := condOf none, kw := factoryKw none kw .h } := symb_ctor hl (.inl rfl)
  rw [hc]
  cases ctorParams W.b0 (D := PyData) { cls := ⟨.h, f⟩, data := data, cond := condOf none, kw := factoryKw none kw .h } with
  | error x => rfl
  | ok p => exact e p

/-- row codes -/
def matCodes (rows : List (List Int)) : List Int := (npInverse rows).map Int.ofNat

theorem matCodes_ne {rows : List (List Int)} (h : rows ≠ []) : matCodes rows ≠ [] := by
  simpa [matCodes, npInverse] using h

theorem matCodes_labels (rows : List (List Int)) : LabelsOf (matCodes rows) rows := by
  obtain ⟨codes, h1, h2, h3⟩ := C07_reduce_array_lossless rows
  cases h1
  exact ⟨h2, h3⟩

theorem mx_init {rows : List (List Int)} (h : rows ≠ []) : discreteHInit [.arr2 rows] = discreteHInit [.arr1 (matCodes rows)] := by
  rw [discreteHInit_arr1 (matCodes_ne h)]
  simp only [discreteHInit, entropyInit, bind, Except.bind, List.mapM_cons, List.mapM_nil, reduceVar, reduceJointSpace,
    show (npInverse rows).map Int.ofNat = matCodes rows from rfl, fromData_ok (matCodes_ne h), pure, Except.pure]

theorem mx_init_two {u v : List (List Int)} (hu : u ≠ []) (hv : v ≠ []) :
    discreteHInit [.arr2 u, .arr2 v] = discreteHInit [.arr1 (matCodes u), .arr1 (matCodes v)] := by
  simp only [discreteHInit, entropyInit, bind, Except.bind, List.mapM_cons, List.mapM_nil, reduceVar, reduceJointSpace,
    show (npInverse u).map Int.ofNat = matCodes u from rfl, show (npInverse v).map Int.ofNat = matCodes v from rfl, fromData_ok (matCodes_ne hu),
    fromData_ok (matCodes_ne hv), pure, Except.pure]

theorem labels_same {c : List Int} {rows : List (List Int)} (h : LabelsOf c rows) : SameCounts c rows := by
  have e1 : c = (List.range rows.length).map (fun t => c.getD t default) := bias_map_getD_range c h.1
  have e2 : rows = (List.range rows.length).map (fun t => rows.getD t []) := by
    refine List.ext_getElem (by simp) fun i h1 h2 => by simp [List.getD_eq_getElem?_getD, List.getElem?_eq_getElem h1]
  rw [e1, e2]
  simp only [List.length_map, List.length_range]
  refine sameCounts_map _ _ _ fun s hs t ht => ?_
  have hs := List.mem_range.1 hs
  have ht := List.mem_range.1 ht
  have := h.2 s t hs ht
  have l := h.1
  rw [List.getElem?_eq_getElem (l ▸ hs), List.getElem?_eq_getElem (l ▸ ht), List.getElem?_eq_getElem hs, List.getElem?_eq_getElem ht,
    Option.some_inj, Option.some_inj] at this
  simpa [List.getD_eq_getElem?_getD, List.getElem?_eq_getElem (l ▸ hs), List.getElem?_eq_getElem (l ▸ ht), List.getElem?_eq_getElem hs,
    List.getElem?_eq_getElem ht] using this

/-- **C102** For every entropy estimator of discrete data there are labels of the rows such that the value and the local values for the array are those for
the sequence of labels. -/
theorem C102_rows_are_symbols (h : Call W .h f a kw b) (hd : DiscreteCall kw f) (hf : f.isSymbolic = true) (w : Nat) (rows : List (List Int)) (hr : rows ≠ []) :
    ∃ codes, LabelsOf codes rows ∧
      imEntropy W [.imat w rows] a .absent kw = imEntropy W [.ints codes] a .absent kw ∧
      ∀ m, Asks W.lower m [.ints codes] none .h → imLocal W [.imat w rows] none (.str m) a kw = imLocal W [.ints codes] none (.str m) a kw :=
  ⟨matCodes rows, matCodes_labels rows, (mx_swap h hd (data := [.ints (matCodes rows)]) (data' := [.imat w rows]) rfl rfl rfl (mx_init hr)).1, fun _ hk => mx_local h.name hf rfl rfl rfl (mx_init hr) hk⟩

/-- **C102** The eight estimators without parameters: their formula for any labelling of the rows. -/
theorem C102_entropy (hf : f ∈ simpleFams) (h : Call W .h f a kw b) (hb : b.Std) (w : Nat) (rows : List (List Int)) (hr : rows ≠ [])
    (codes : List Int) (hc : LabelsOf codes rows) : imEntropy W [.imat w rows] a .absent kw = .ok (entropyFormula f codes / b.ln) := by
  rw [(mx_swap h (.simple f hf) (data := [.ints (matCodes rows)]) (data' := [.imat w rows]) rfl rfl rfl (mx_init hr)).1, C82_entropy f hf h hb _ (matCodes_ne hr),
    idn_formula_congr ((labels_same (matCodes_labels rows)).trans (labels_same hc).symm) f hf]

/-- **C102** The plug-in estimator: the Shannon entropy of the rows. -/
theorem C102_shannon (h : Call W .h .discrete a kw b) (hb : b.Std) (w : Nat) (rows : List (List Int)) (hr : rows ≠ []) :
    imEntropy W [.imat w rows] a .absent kw = .ok (entropy rows / b.ln) := by
  rw [C102_entropy (by simp [simpleFams]) h hb w rows hr _ (matCodes_labels rows)]
  show Except.ok (entropy _ / _) = _
  rw [idn_entropy_congr (labels_same (matCodes_labels rows))]

/-- **C102** A tuple of sequences is the array whose columns they are: value and local values. -/
theorem C102_tuple_is_matrix (h : Call W .h f a kw b) (hd : DiscreteCall kw f) (hf : f.isSymbolic = true) (n : Nat) (hn : 0 < n) (cols : List (List Int))
    (hne : cols ≠ []) (hl : ∀ c ∈ cols, c.length = n) :
    imEntropy W [.intTup cols] a .absent kw = imEntropy W [.imat cols.length (rows n cols)] a .absent kw ∧
      ∀ m, Asks W.lower m [.intTup cols] none .h →
        imLocal W [.intTup cols] none (.str m) a kw = imLocal W [.imat cols.length (rows n cols)] none (.str m) a kw := by
  have hr : rows n cols ≠ [] := by
    intro e
    have := congrArg List.length e
    simp [rows] at this
    omega
  have e : discreteHInit [.tup cols] = discreteHInit [.arr2 (rows n cols)] := by
    rw [mx_init hr, discreteHInit_arr1 (matCodes_ne hr), discreteHInit_tup hn hne hl]; rfl
  exact ⟨(mx_swap h hd (data := [.imat cols.length (rows n cols)]) (data' := [.intTup cols]) rfl rfl rfl e).1, fun m hk => mx_local h.name hf rfl rfl rfl e hk⟩

/-- **C102** Cross-entropy of two arrays: the rows of each array are numbered by themselves (the `i`-th smallest different row gets the number `i`), so it
is the cross-entropy of two sequences of such numbers. -/
theorem C102_cross_entropy (h : Call W .h f a kw b) (hd : DiscreteCall kw f) (u v : List (List Int)) (w w' : Nat) (hu : u ≠ []) (hv : v ≠ []) :
    ∃ cu cv, LabelsOf cu u ∧ LabelsOf cv v ∧ (∀ c, c ∈ cu ↔ 0 ≤ c ∧ c < u.toFinset.card) ∧ (∀ c, c ∈ cv ↔ 0 ≤ c ∧ c < v.toFinset.card) ∧
      imCrossEntropy W [.imat w u, .imat w' v] a .absent kw = imCrossEntropy W [.ints cu, .ints cv] a .absent kw :=
  ⟨matCodes u, matCodes v, matCodes_labels u, matCodes_labels v, C07_codes_range u _ rfl, C07_codes_range v _ rfl,
    (mx_swap h hd (data := [.ints (matCodes u), .ints (matCodes v)]) (data' := [.imat w u, .imat w' v]) rfl rfl rfl (mx_init_two hu hv)).2 le_rfl⟩

example := C102_rows_are_symbols (demoCall (f := .nsb) (b := .e) "nsb" [("K", .int 9)] (by decide) (by decide) rfl) (.nsb (some 9) rfl) rfl 2
  [[1, 0], [1, 1], [1, 0]] (by simp)
example := C102_entropy (b := .e) (f := .chaoShen) (by simp [simpleFams]) (call "chao_shen", []) trivial 2 [[1, 0], [1, 1], [1, 0]] (by simp) [5, 7, 5]
  ⟨rfl, fun s t hs ht => by simp only [List.length_cons, List.length_nil] at hs ht; interval_cases s <;> interval_cases t <;> simp⟩
example := C102_shannon (b := .e) (call "discrete", []) trivial 2 [[1, 0], [1, 1], [1, 0]] (by simp)

end Verif
