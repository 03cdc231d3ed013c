import Verif.Props.EndToEnd3
import Verif.Props.OrdinalTE2
import Verif.Props.EndToEnd6

/-!
# C95: units, origins and increasing maps through the public functions (ordinal approach)

Ordinal approach: a strictly increasing map of every series (each with its own) changes no result of the public functions.
-/

namespace Verif

open Spec

section Maps
variable {α : Type} [LinearOrder α] [Inhabited α] {β : Type} [LinearOrder β] [Inhabited β]

theorem units_zip_lt (f : α → β) (hf : StrictMono f) (a b : List α) :
    List.zipWith (fun u v => decide (u < v)) (a.map f) (b.map f) = List.zipWith (fun u v => decide (u < v)) a b := by
  rw [List.zipWith_map]
  congr 1
  funext u v
  simp [hf.lt_iff_lt]

theorem units_slice (f : α → β) (x : List α) (i j : Option Int) : pySlice (x.map f) i j = (pySlice x i j).map f := by
  simp [pySlice, List.map_take, List.map_drop]

theorem units_dim2 (f : α → β) (hf : StrictMono f) (x : List α) : ordDim2 (x.map f) = ordDim2 x := by
  unfold ordDim2
  simp only [units_slice, units_zip_lt f hf, List.length_map]

theorem units_dim3 (f : α → β) (hf : StrictMono f) (x : List α) : ordDim3 (x.map f) = ordDim3 x := by
  unfold ordDim3 dim3Keys
  simp only [units_slice, units_zip_lt f hf, List.length_map]

theorem units_ordSimple (q : Argsort α) (q' : Argsort β) (x : List α) (f : α → β) (hf : StrictMono f) (d s : Nat) (st : Bool)
    (ht : st = true ∨ TieFree x d s) (b : Base) :
    (ordSimple q' (x.map f) d s st b).map (fun r => r.1) = (ordSimple q x d s st b).map (fun r => r.1) := by
  unfold ordSimple
  rw [List.length_map]
  split_ifs
  · rfl
  · rfl
  · have e : ordProbabilities q' (x.map f) d s st = ordProbabilities q x d s st := by
      unfold ordProbabilities ordGeneric
      rw [units_dim2 f hf, units_dim3 f hf, (C27_invariant_under_increasing_maps q q' x f hf d s st ht).1, List.length_map]
    rw [e]

/-- the constructor looks at the lengths only -/
theorem units_init1 (x : List α) (f : α → β) (d s : Nat) (st : Bool) :
    (∃ e, ordInit [OInput.arr1 (x.map f)] { dim := .int d, step := .int s, stable := st } = .error e ∧
      ordInit [OInput.arr1 x] { dim := .int d, step := .int s, stable := st } = .error e) ∨
    (ordInit [OInput.arr1 (x.map f)] { dim := .int d, step := .int s, stable := st } = .ok ([.arr1 (x.map f)], d, s) ∧
      ordInit [OInput.arr1 x] { dim := .int d, step := .int s, stable := st } = .ok ([.arr1 x], d, s)) := by
  simp only [ordInit, ordBaseInit, bind, Except.bind, List.length_map, List.any_cons, List.any_nil, Bool.or_false,
    Bool.false_eq_true, if_false, PyArg.val, pure, Except.pure]
  split_ifs <;> simp_all <;> omega

theorem units_init2 (x y : List α) (f g : α → β) (d s : Nat) (st : Bool) :
    (∃ e, ordInit [OInput.arr1 (x.map f), .arr1 (y.map g)] { dim := .int d, step := .int s, stable := st } = .error e ∧
      ordInit [OInput.arr1 x, .arr1 y] { dim := .int d, step := .int s, stable := st } = .error e) ∨
    (ordInit [OInput.arr1 (x.map f), .arr1 (y.map g)] { dim := .int d, step := .int s, stable := st } =
        .ok ([.arr1 (x.map f), .arr1 (y.map g)], d, s) ∧
      ordInit [OInput.arr1 x, .arr1 y] { dim := .int d, step := .int s, stable := st } = .ok ([.arr1 x, .arr1 y], d, s)) := by
  simp only [ordInit, ordBaseInit, bind, Except.bind, List.length_map, List.any_cons, List.any_nil, Bool.or_false,
    Bool.false_eq_true, if_false, PyArg.val, pure, Except.pure]
  split_ifs <;> simp_all <;> omega

theorem units_initT (L : List (List α × (α → β))) (d s : Nat) (st : Bool) :
    (∃ e, ordInit [OInput.tup (L.map (fun p => p.1.map p.2))] { dim := .int d, step := .int s, stable := st } = .error e ∧
      ordInit [OInput.tup (L.map Prod.fst)] { dim := .int d, step := .int s, stable := st } = .error e) ∨
    (ordInit [OInput.tup (L.map (fun p => p.1.map p.2))] { dim := .int d, step := .int s, stable := st } =
        .ok ([.tup (L.map (fun p => p.1.map p.2))], d, s) ∧
      ordInit [OInput.tup (L.map Prod.fst)] { dim := .int d, step := .int s, stable := st } = .ok ([.tup (L.map Prod.fst)], d, s)) := by
  have e1 : (L.map (fun p => p.1.map p.2)).all (fun v => decide (v.length = ((L.map (fun p => p.1.map p.2)).headD []).length)) =
      (L.map Prod.fst).all (fun v => decide (v.length = ((L.map Prod.fst).headD []).length)) := by
    cases L with
    | nil => rfl
    | cons a t => simp [List.all_map, Function.comp_def]
  simp only [ordInit, ordBaseInit, e1]
  cases h : (L.map Prod.fst).all (fun v => decide (v.length = ((L.map Prod.fst).headD []).length)) with
  | false => simp [bind, Except.bind]
  | true =>
    cases L with
    | nil =>
      simp only [bind, Except.bind, List.map_nil, if_true, List.any_cons, List.any_nil, Bool.or_false, Bool.false_eq_true, if_false]
      split_ifs <;> simp
    | cons a t =>
      simp only [bind, Except.bind, List.map_cons, if_true, List.any_cons, List.any_nil, Bool.or_false, Bool.false_eq_true, if_false,
        List.length_map, PyArg.val, pure, Except.pure]
      clear e1 h
      split_ifs <;> simp_all <;> omega

/-- **C95** permutation entropy: the estimate from any series of an ordered type is unchanged by a strictly increasing map. -/
theorem C95_ordinal_entropy_map (q : Argsort α) (q' : Argsort β) (x : List α) (f : α → β) (hf : StrictMono f) (d s : Nat) (st : Bool)
    (ht : st = true ∨ TieFree x d s) (b : Base) :
    ordEntropy q' [.arr1 (x.map f)] { dim := .int d, step := .int s, stable := st } b =
      ordEntropy q [.arr1 x] { dim := .int d, step := .int s, stable := st } b := by
  unfold ordEntropy
  rcases units_init1 x f d s st with ⟨e, h1, h2⟩ | ⟨h1, h2⟩
  · simp only [h1, h2, bind, Except.bind]
  · simp only [h1, h2, bind, Except.bind]
    exact units_ordSimple q q' x f hf d s st ht b

/-- **C95** the same for the joint entropy, a map for every series (`stable` has no effect on joint entropies, so the windows must
have no ties). -/
theorem C95_ordinal_joint_map (q : Argsort α) (q' : Argsort β) (L : List (List α × (α → β))) (hf : ∀ p ∈ L, StrictMono p.2) (d s : Nat)
    (st : Bool) (ht : ∀ p ∈ L, TieFree p.1 d s) (b : Base) :
    ordEntropy q' [.tup (L.map (fun p => p.1.map p.2))] { dim := .int d, step := .int s, stable := st } b =
      ordEntropy q [.tup (L.map Prod.fst)] { dim := .int d, step := .int s, stable := st } b := by
  unfold ordEntropy
  rcases units_initT L d s st with ⟨e, h1, h2⟩ | ⟨h1, h2⟩
  · simp only [h1, h2, bind, Except.bind]
  · simp only [h1, h2, bind, Except.bind]
    have e : (L.map (fun p => p.1.map p.2)).mapM (fun c => symbolizeInt q' c d s false) =
        (L.map Prod.fst).mapM (fun c => symbolizeInt q c d s false) := by
      clear h1 h2
      induction L with
      | nil => rfl
      | cons p t ih =>
        simp only [List.map_cons, List.mapM_cons]
        rw [(C27_invariant_under_increasing_maps q q' p.1 p.2 (hf p (by simp)) d s false (.inr (ht p (by simp)))).2,
          ih (fun p hp => hf p (by simp [hp])) (fun p hp => ht p (by simp [hp]))]
    simp only [ordJoint, e]

/-- **C95** and the cross-entropy. -/
theorem C95_ordinal_cross_map (q : Argsort α) (q' : Argsort β) (x y : List α) (f g : α → β) (hf : StrictMono f) (hg : StrictMono g)
    (d s : Nat) (st : Bool) (hx : TieFree x d s) (hy : TieFree y d s) (b : Base) :
    ordEntropy q' [.arr1 (x.map f), .arr1 (y.map g)] { dim := .int d, step := .int s, stable := st } b =
      ordEntropy q [.arr1 x, .arr1 y] { dim := .int d, step := .int s, stable := st } b := by
  unfold ordEntropy
  rcases units_init2 x y f g d s st with ⟨e, h1, h2⟩ | ⟨h1, h2⟩
  · simp only [h1, h2, bind, Except.bind]
  · simp only [h1, h2, bind, Except.bind, ordCross,
      (C27_invariant_under_increasing_maps q q' x f hf d s false (.inr hx)).2,
      (C27_invariant_under_increasing_maps q q' y g hg d s false (.inr hy)).2]

theorem units_symbols (q : Argsort α) (q' : Argsort β) (L : List (List α × (α → β))) (hf : ∀ p ∈ L, StrictMono p.2) (d s : Nat)
    (st : Bool) (ht : ∀ p ∈ L, st = true ∨ TieFree p.1 d s) :
    (L.map (fun p => p.1.map p.2)).mapM (ordSymbols q' d s st) = (L.map Prod.fst).mapM (ordSymbols q d s st) := by
  induction L with
  | nil => rfl
  | cons p t ih =>
    simp only [List.map_cons, List.mapM_cons]
    have e : ordSymbols q' d s st (p.1.map p.2) = ordSymbols q d s st p.1 := by
      unfold ordSymbols
      rw [(C27_invariant_under_increasing_maps q q' p.1 p.2 (hf p (by simp)) d s st (ht p (by simp))).1]
    rw [e, ih (fun p hp => hf p (by simp [hp])) (fun p hp => ht p (by simp [hp]))]

theorem units_checks (lo : Int) (n d s : Nat) : (∃ e, ordPairChecks lo n (.int d) (.int s) = .error e) ∨
    ordPairChecks lo n (.int d) (.int s) = .ok ((d : Int), (s : Int)) := by
  unfold ordPairChecks
  split_ifs
  · exact .inl ⟨_, rfl⟩
  · exact .inl ⟨_, rfl⟩
  · exact .inl ⟨_, rfl⟩
  · exact .inr rfl

omit [LinearOrder α] [Inhabited α] [LinearOrder β] [Inhabited β] in
theorem units_head (L : List (List α × (α → β))) (n : Nat) (h2 : 2 ≤ L.length) (hl : ∀ p ∈ L, p.1.length = n) :
    ((L.map Prod.fst).headD []).length = n ∧ ((L.map (fun p => p.1.map p.2)).headD []).length = n := by
  cases L with
  | nil => simp at h2
  | cons p t => simp [hl p (by simp)]

omit [LinearOrder α] [Inhabited α] [LinearOrder β] [Inhabited β] in
theorem units_lengths {L : List (List α × (α → β))} {n : Nat} (hl : ∀ p ∈ L, p.1.length = n) :
    (∀ c ∈ L.map Prod.fst, c.length = n) ∧ (∀ c ∈ L.map (fun p => p.1.map p.2), c.length = n) := by
  constructor <;> intro c hc <;> obtain ⟨p, hp, rfl⟩ := List.mem_map.1 hc <;> simp [hl p hp]

/-- **C95** ordinal mutual information of any number of series, a map for every series. -/
theorem C95_ordinal_mi_map (q : Argsort α) (q' : Argsort β) (L : List (List α × (α → β))) (hf : ∀ p ∈ L, StrictMono p.2) (d s : Nat)
    (st : Bool) (ht : ∀ p ∈ L, st = true ∨ TieFree p.1 d s) (n : Nat) (h2 : 2 ≤ L.length) (hl : ∀ p ∈ L, p.1.length = n) (b : Base) :
    ordMI q' (L.map (fun p => p.1.map p.2)) { dim := .int d, step := .int s, stable := st } (some 0) b =
      ordMI q (L.map Prod.fst) { dim := .int d, step := .int s, stable := st } (some 0) b := by
  unfold ordMI ordMIInit
  have h := units_head L n h2 hl
  rw [miInit_ok (N := n) (by simpa using h2) (units_lengths hl).2, miInit_ok (N := n) (by simpa using h2) (units_lengths hl).1]
  simp only [bind, Except.bind, h.1, h.2]
  rcases units_checks 1 n d s with ⟨e, he⟩ | he
  · simp only [he]
  · simp only [he, units_symbols q q' L hf d s st ht]

/-- **C95** ordinal conditional mutual information of any number of series; the condition has its own map. -/
theorem C95_ordinal_cmi_map (q : Argsort α) (q' : Argsort β) (L : List (List α × (α → β))) (hf : ∀ p ∈ L, StrictMono p.2) (d s : Nat)
    (st : Bool) (ht : ∀ p ∈ L, st = true ∨ TieFree p.1 d s) (z : List α) (g : α → β) (hg : StrictMono g)
    (hz : st = true ∨ TieFree z d s) (h2 : 2 ≤ L.length) (hl : ∀ p ∈ L, p.1.length = z.length) (b : Base) :
    ordCMI q' (L.map (fun p => p.1.map p.2)) (some (z.map g)) { dim := .int d, step := .int s, stable := st } (some 0) b =
      ordCMI q (L.map Prod.fst) (some z) { dim := .int d, step := .int s, stable := st } (some 0) b := by
  unfold ordCMI ordCMIInit
  have h := units_head L z.length h2 hl
  rw [cmiInit_ok (by simpa using h2) (by simpa using (units_lengths hl).2) (.inl rfl),
    cmiInit_ok (by simpa using h2) (units_lengths hl).1 (.inl rfl)]
  simp only [bind, Except.bind, h.1, h.2]
  rcases units_checks 1 z.length d s with ⟨e, he⟩ | he
  · simp only [he]
  · have e : ordSymbols q' d s st (z.map g) = ordSymbols q d s st z := by
      unfold ordSymbols
      rw [(C27_invariant_under_increasing_maps q q' z g hg d s st hz).1]
    simp only [he, units_symbols q q' L hf d s st ht, e]

/-- **C95** ordinal conditional transfer entropy, a map for every series. -/
theorem C95_ordinal_cte_map (q : Argsort α) (q' : Argsort β) (x y z : List α) (f g h : α → β) (hf : StrictMono f) (hg : StrictMono g)
    (hh : StrictMono h) (d s : Nat) (l k c : PyArg) (st : Bool) (htx : st = true ∨ TieFree x d s) (hty : st = true ∨ TieFree y d s)
    (htz : st = true ∨ TieFree z d s) (hxy : x.length = y.length) (hzy : z.length = y.length) (b : Base) :
    let p : OrdTEParams :=
      { dim := .int d, stable := st, te := { srcHist := l, destHist := k, step := .int s }, condHist := c }
    ordCTE q' (x.map f) (y.map g) (some (z.map h)) p (some (.int 0)) none b =
      ordCTE q x y (some z) p (some (.int 0)) none b := by
  intro p
  unfold ordCTE
  rw [cteInit_zero hxy hzy, cteInit_zero (show (x.map f).length = (y.map g).length by simpa using hxy) (by simpa using hzy)]
  simp only [bind, Except.bind, List.length_map]
  rcases units_checks 0 x.length d s with ⟨e, he⟩ | he
  · have he' : ordPairChecks 0 x.length p.dim p.te.step = .error e := he
    simp only [he']
  · have he' : ordPairChecks 0 x.length p.dim p.te.step = .ok ((d : Int), (s : Int)) := he
    simp only [he', show p.stable = st from rfl, (C27_invariant_under_increasing_maps q q' x f hf d s st htx).2,
      (C27_invariant_under_increasing_maps q q' y g hg d s st hty).2, (C27_invariant_under_increasing_maps q q' z h hh d s st htz).2]

end Maps

variable {W : World} {a : PyName} {kw : Kw} {b : Base} {cond : CondKw PyData}

/-- **C95** `im.entropy(x, approach="ordinal")`: replacing `x` by `f(x)`, `f` strictly increasing, changes nothing — value or
exception — if the windows have no ties or `stable=True`. -/
theorem C95_ordinal_entropy (h : Call W .h .ordinal a kw b) (x : List ℝ) (f : ℝ → ℝ) (hf : StrictMono f) (d s : Nat) (st : Bool)
    (h1 : kw "embedding_dim" = some (.int d)) (h2 : kwOr kw "step_size" (.int 1) = .int s)
    (h3 : kwOr kw "stable" (.bool false) = .bool st) (ht : st = true ∨ TieFree x d s) :
    imEntropy W [.reals (x.map f)] a .absent kw = imEntropy W [.reals x] a .absent kw := by
  have key := fun data => (e2e_h_ordinal h.name h.accepted (data := data) (d := .int d) (by rw [h1]; rfl) (s := .int s)
    (by rw [h2]; rfl) (st := st) (by rw [h3]; rfl) h.base).1
  rw [key, key]
  exact C95_ordinal_entropy_map W.quick W.quick x f hf d s st ht b

/-- **C95** joint entropy of series, each with its own increasing map. -/
theorem C95_ordinal_joint (h : Call W .h .ordinal a kw b) (L : List (List ℝ × (ℝ → ℝ))) (hf : ∀ p ∈ L, StrictMono p.2) (d s : Nat)
    (st : Bool) (h1 : kw "embedding_dim" = some (.int d)) (h2 : kwOr kw "step_size" (.int 1) = .int s)
    (h3 : kwOr kw "stable" (.bool false) = .bool st) (ht : ∀ p ∈ L, TieFree p.1 d s) :
    imEntropy W [.tup ((L.map (fun p => p.1.map p.2)).map .one)] a .absent kw =
      imEntropy W [.tup ((L.map Prod.fst).map .one)] a .absent kw := by
  have key := fun data => (e2e_h_ordinal h.name h.accepted (data := data) (d := .int d) (by rw [h1]; rfl) (s := .int s)
    (by rw [h2]; rfl) (st := st) (by rw [h3]; rfl) h.base).1
  rw [key, key]
  simp only [List.map_cons, List.map_nil, PyData.toOInput, mapM_series_one]
  exact C95_ordinal_joint_map W.quick W.quick L hf d s st ht b

/-- **C95** cross-entropy. -/
theorem C95_ordinal_cross (h : Call W .h .ordinal a kw b) (x y : List ℝ) (f g : ℝ → ℝ) (hf : StrictMono f) (hg : StrictMono g)
    (d s : Nat) (st : Bool) (h1 : kw "embedding_dim" = some (.int d)) (h2 : kwOr kw "step_size" (.int 1) = .int s)
    (h3 : kwOr kw "stable" (.bool false) = .bool st) (hx : TieFree x d s) (hy : TieFree y d s) :
    imCrossEntropy W [.reals (x.map f), .reals (y.map g)] a .absent kw = imCrossEntropy W [.reals x, .reals y] a .absent kw := by
  have key := fun data => (e2e_h_ordinal h.name h.accepted (data := data) (d := .int d) (by rw [h1]; rfl) (s := .int s)
    (by rw [h2]; rfl) (st := st) (by rw [h3]; rfl) h.base).2
  rw [key _ (by simp), key _ (by simp)]
  exact C95_ordinal_cross_map W.quick W.quick x y f g hf hg d s st hx hy b

theorem units_reals (L : List (List ℝ × (ℝ → ℝ))) :
    (L.map (fun p => PyData.reals p.1)).mapM PyData.toSeries = some (L.map Prod.fst) ∧
      (L.map (fun p => PyData.reals (p.1.map p.2))).mapM PyData.toSeries = some (L.map (fun p => p.1.map p.2)) := by
  constructor
  · simpa [List.map_map, Function.comp_def] using mapM_reals (L.map Prod.fst)
  · simpa [List.map_map, Function.comp_def] using mapM_reals (L.map (fun p => p.1.map p.2))

/-- **C95** mutual information of any number of series of equal length. -/
theorem C95_ordinal_mi (h : Call W .mi .ordinal a kw b) (hc : cond.isVal = false) (ho : kwOr kw "offset" (.int 0) = .int 0)
    (L : List (List ℝ × (ℝ → ℝ))) (hf : ∀ p ∈ L, StrictMono p.2) (d s : Nat) (st : Bool) (h1 : kwOr kw "embedding_dim" .none = .int d)
    (h2 : kwOr kw "step_size" (.int 1) = .int s) (h3 : kwOr kw "stable" (.bool false) = .bool st)
    (ht : ∀ p ∈ L, st = true ∨ TieFree p.1 d s) (n : Nat) (hL : 2 ≤ L.length) (hl : ∀ p ∈ L, p.1.length = n) :
    imMI W (L.map (fun p => .reals (p.1.map p.2))) a cond kw = imMI W (L.map (fun p => .reals p.1)) a cond kw := by
  have key := fun (data : List PyData) (hd : 2 ≤ data.length) (xs : List (List ℝ)) (hx : data.mapM PyData.toSeries = some xs) =>
    e2e_mi_ordinal hc h.name hd h.accepted (d := .int d) (by rw [h1]; rfl) (s := .int s) (by rw [h2]; rfl) (st := st)
      (by rw [h3]; rfl) (o := some 0) (by rw [ho]; rfl) h.base hx
  rw [key _ (by simpa using hL) _ (units_reals L).1, key _ (by simpa using hL) _ (units_reals L).2]
  exact C95_ordinal_mi_map W.quick W.quick L hf d s st ht n hL hl b

/-- **C95** conditional mutual information. -/
theorem C95_ordinal_cmi (h : Call W .cmi .ordinal a kw b) (ho : kwOr kw "offset" (.int 0) = .int 0)
    (L : List (List ℝ × (ℝ → ℝ))) (hf : ∀ p ∈ L, StrictMono p.2) (d s : Nat) (st : Bool) (h1 : kwOr kw "embedding_dim" .none = .int d)
    (h2 : kwOr kw "step_size" (.int 1) = .int s) (h3 : kwOr kw "stable" (.bool false) = .bool st)
    (ht : ∀ p ∈ L, st = true ∨ TieFree p.1 d s) (z : List ℝ) (g : ℝ → ℝ) (hg : StrictMono g) (hz : st = true ∨ TieFree z d s)
    (hL : 2 ≤ L.length) (hl : ∀ p ∈ L, p.1.length = z.length) :
    ∃ r, CmiIs W (L.map (fun p => .reals (p.1.map p.2))) a (.reals (z.map g)) kw r ∧
      CmiIs W (L.map (fun p => .reals p.1)) a (.reals z) kw r := by
  have key := fun (data : List PyData) (hd : 2 ≤ data.length) (xs : List (List ℝ)) (hx : data.mapM PyData.toSeries = some xs)
      (z : List ℝ) => e2e_cmi_ordinal h.name hd h.accepted (d := .int d) (by rw [h1]; rfl) (s := .int s) (by rw [h2]; rfl) (st := st)
      (by rw [h3]; rfl) (o := some 0) (by rw [ho]; rfl) h.base hx (dz := .reals z) (z := z) rfl
  refine ⟨_, key _ (by simpa using hL) _ (units_reals L).2 _, ?_⟩
  rw [C95_ordinal_cmi_map W.quick W.quick L hf d s st ht z g hg hz hL hl b]
  exact key _ (by simpa using hL) _ (units_reals L).1 _

/-- **C95** transfer entropy. -/
theorem C95_ordinal_te (h : Call W .te .ordinal a kw b) (hc : cond.isVal = false) {l k s : Nat} (hh : History kw l k s)
    (d : Nat) (st : Bool) (h1 : kw "embedding_dim" = some (.int d)) (h3 : kwOr kw "stable" (.bool false) = .bool st)
    (x y : List ℝ) (hxy : x.length = y.length) (f g : ℝ → ℝ) (hf : StrictMono f) (hg : StrictMono g)
    (htx : st = true ∨ TieFree x d s) (hty : st = true ∨ TieFree y d s) :
    imTE W [.reals (x.map f), .reals (y.map g)] a cond kw = imTE W [.reals x, .reals y] a cond kw := by
  have key := fun (x y : List ℝ) => e2e_te_ordinal hc h.name h.accepted (d := .int d) (by rw [h1]; rfl) (st := st) (by rw [h3]; rfl)
    hh.u hh.st hh.sh hh.dh hh.o h.base (dx := .reals x) (dy := .reals y) rfl rfl
  rw [key, key]
  exact C57_invariant_under_increasing_maps W.quick W.quick x y f g hf hg d s (.int l) (.int k) st htx hty hxy b {}

/-- **C95** conditional transfer entropy. -/
theorem C95_ordinal_cte (h : Call W .cte .ordinal a kw b) {l k s c : Nat} (hh : History kw l k s)
    (hcd : kwOr kw "cond_hist_len" (.int 1) = .int c)
    (d : Nat) (st : Bool) (h1 : kw "embedding_dim" = some (.int d)) (h3 : kwOr kw "stable" (.bool false) = .bool st)
    (x y z : List ℝ) (hxy : x.length = y.length) (hzy : z.length = y.length) (f g i : ℝ → ℝ) (hf : StrictMono f) (hg : StrictMono g)
    (hi : StrictMono i) (htx : st = true ∨ TieFree x d s) (hty : st = true ∨ TieFree y d s) (htz : st = true ∨ TieFree z d s) :
    ∃ r, CteIs W (.reals (x.map f)) (.reals (y.map g)) a (.reals (z.map i)) kw r ∧ CteIs W (.reals x) (.reals y) a (.reals z) kw r := by
  have key := fun (x y z : List ℝ) => e2e_cte_ordinal h.name h.accepted (d := .int d) (by rw [h1]; rfl) (st := st) (by rw [h3]; rfl)
    hh.u hh.st hh.sh hh.dh (condArg hcd) hh.o h.base (dx := .reals x) (dy := .reals y) rfl rfl (dz := .reals z) (z := z) rfl
  refine ⟨_, key _ _ _, ?_⟩
  rw [C95_ordinal_cte_map W.quick W.quick x y z f g i hf hg hi d s (.int l) (.int k) (.int c) st htx hty htz hxy hzy b]
  exact key _ _ _

end Verif
