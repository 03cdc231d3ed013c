import Verif.Props.Ordinal
import Verif.Props.Joint

/-! # Properties C28, C29 : ordinal entropy -/

namespace Verif

open Spec

section
variable {α : Type} [LinearOrder α] [Inhabited α]

theorem windows_eq (x : List α) (d s : Nat) : windows x d s = delayVectors x d s := rfl

/-- entropy of the labels of tie-free windows = permutation entropy -/
theorem entropy_labels (q : Argsort α) (stable : Bool) (x : List α) (d s : Nat) (ht : TieFree x d s) :
    entropy ((windows x d s).map (ordLabel q stable d s)) = permEntropy x d s := by
  rw [permEntropy, windows_eq]
  refine entropy_map_congr _ _ _ fun u hu v hv => ?_
  rw [rankPattern_eq_iff]
  exact ordLabel_eq_iff q stable (mem_windows_length hu) (mem_windows_length hv) (ht u hu) (ht v hv)

theorem entropy_sorts (q : Argsort α) (stable : Bool) (x : List α) (d s : Nat) (ht : TieFree x d s) :
    entropy ((windows x d s).map (sortFun q stable)) = permEntropy x d s := by
  rw [permEntropy, windows_eq]
  refine entropy_map_congr _ _ _ fun u hu v hv => ?_
  rw [rankPattern_eq_iff]
  exact sortFun_eq_iff q stable (by rw [mem_windows_length hu, mem_windows_length hv]) (ht u hu) (ht v hv)

/-! ## C28 -/

/-- **C28** On series without ties in a window, the ordinal entropy is the permutation entropy — the
Shannon entropy of the rank patterns of all delay vectors — for every dimension and step, whatever
the sorting algorithm and `stable`: the special-case paths for dimensions 2 and 3 included. -/
theorem C28_ordinal_entropy_is_permutation_entropy (q : Argsort α) (x : List α) (d s : Nat) (hd : 1 ≤ d)
    (hs : 1 ≤ s) (hn : (d - 1) * s < x.length) (ht : TieFree x d s) (stable : Bool) (b : Base)
    (hb : b.Valid) :
    ordEntropy q [.arr1 x] { dim := .int d, step := .int s, stable := stable } b
      = .ok (permEntropy x d s / b.ln) := by
  rw [ordEntropy_value q x hd hs hn stable hb, entropy_labels q stable x d s ht]

example := C28_ordinal_entropy_is_permutation_entropy stableSort [3, 1, 2, 5, 4, 0] 3 1 (by decide) (by decide) (by decide) (by unfold TieFree delayVectors; decide) false (.num 2) (by norm_num [Base.Valid])

/-- **C28** fast path = generic path: for dimension 2 or 3 with step 1 and no ties, the special-case
counting and the generic argsort counting give the same entropy. -/
theorem C28_fast_paths_agree (q : Argsort α) (x : List α) (d : Nat) (hd : d = 2 ∨ d = 3)
    (hn : (d - 1) * 1 < x.length) (ht : TieFree x d 1) (stable : Bool) (b : Base) (hb : b.Valid) :
    ∃ fast generic, ordProbabilities q x d 1 stable = .ok fast ∧ ordGeneric q x d 1 stable = .ok generic ∧
      ordSum b fast.probs = ordSum b generic.probs := by
  have hd1 : 1 ≤ d := by omega
  obtain ⟨o, ho, hg, hp⟩ := ordProbabilities_good q x hd1 (le_refl 1) hn stable
  obtain ⟨o', ho', hg', hp'⟩ := ordGeneric_good q x hd1 (le_refl 1) hn stable
  refine ⟨o, o', by simpa using ho, by simpa using ho', ?_⟩
  rw [hg.value b hb, hg'.value b hb, hp, hp', entropy_labels q stable x d 1 ht, entropy_sorts q stable x d 1 ht]

example := C28_fast_paths_agree stableSort [3, 1, 2, 5, 4, 0] 3 (.inr rfl) (by decide) (by unfold TieFree delayVectors; decide) false (.num 2) (by norm_num [Base.Valid])

/-- **C28** local values (dimension ≥ 2): one per window, `−log_b` of the frequency of the window's
pattern, with mean equal to the global value; with ties too. -/
theorem C28_local_values (q : Argsort α) (x : List α) (d s : Nat) (hd : 2 ≤ d) (hs : 1 ≤ s)
    (hn : (d - 1) * s < x.length) (stable : Bool) (b : Base) (hb : b.Valid) :
    ∃ l H, ordEntropyLocal q [.arr1 x] { dim := .int d, step := .int s, stable := stable } b = .ok l ∧
      ordEntropy q [.arr1 x] { dim := .int d, step := .int s, stable := stable } b = .ok H ∧
      l.length = x.length - (d - 1) * s ∧ Spec.mean l = H := by
  have hv := ordEntropy_value q x (by omega) hs hn stable hb
  have hwl : (windows x d s).length = x.length - (d - 1) * s := windows_length x d s
  -- all that is needed of the stored dictionary
  have fin : ∀ o : OrdDist, o.patterns.length = x.length - (d - 1) * s →
      (∀ p ∈ o.patterns, dictGet o.dist p = .ok (freq o.patterns p)) →
      ∃ l, (do
        let ps ← o.patterns.mapM (dictGet o.dist)
        let l ← ps.mapM (logBase b)
        pure (l.map (fun v => - v)) : Except Exc (List ℝ)) = .ok l ∧ l.length = x.length - (d - 1) * s ∧
        Spec.mean l = entropy o.patterns / b.ln := by
    intro o hlen hlook
    have e1 : o.patterns.mapM (dictGet o.dist) = .ok (o.patterns.map (freq o.patterns)) := mapM_ok _ hlook
    have e2 : (o.patterns.map (freq o.patterns)).mapM (logBase b)
        = .ok ((o.patterns.map (freq o.patterns)).map (fun p => Real.log p / b.ln)) := by
      refine mapM_ok _ fun p hp => ?_
      obtain ⟨a, ha, rfl⟩ := List.mem_map.1 hp
      exact logBase_ok hb (freq_pos ha)
    refine ⟨_, by simp only [e1, e2, bind, Except.bind, pure, Except.pure]; rfl, by simp [hlen], ?_⟩
    rw [entropy_eq_mean, mean, mean]
    simp only [List.map_map, List.length_map]
    have : o.patterns.map ((fun v => -v) ∘ (fun p => Real.log p / b.ln) ∘ freq o.patterns)
        = o.patterns.map (fun a => (- Real.log (freq o.patterns a)) / b.ln) := by
      refine List.map_congr_left fun a _ => ?_
      simp only [Function.comp]; ring
    rw [this, sum_map_div']; ring
  have hd1 : ¬ (d : Int) = 1 := by omega
  unfold ordEntropyLocal
  simp only [ordInit_arr1 x (by omega) hs hn stable, bind, Except.bind]
  by_cases hsing : ((d : Int) - 1) * s + 1 = (x.length : Int)
  · have hlen : x.length - (d - 1) * s = 1 := by
      have e : ((d : Int) - 1) = ((d - 1 : Nat) : Int) := by omega
      rw [e] at hsing
      have : (d - 1) * s + 1 = x.length := by exact_mod_cast hsing
      omega
    have hent : entropy ((windows x d s).map (ordLabel q stable d s)) = 0 := by
      rw [hlen] at hwl
      obtain ⟨w, hw⟩ := List.length_eq_one_iff.1 hwl
      rw [hw, entropy_eq_zero_iff]; simp
    obtain ⟨l, hl, hl1, hl2⟩ := fin { probs := [1], dist := [(q.run x, 1)], patterns := [q.run x] }
      (by simp [hlen]) (by
        intro p hp
        have : p = q.run x := by simpa using hp
        subst this
        simp [dictGet, freq, cnt])
    refine ⟨l, _, ?_, hv, hl1, ?_⟩
    · simp only [ordSimple, if_neg hd1, if_pos hsing]
      exact hl
    · rw [hl2, hent]
      congr 1
      rw [entropy_eq_zero_iff]; simp
  · obtain ⟨o, ho, hg, hp⟩ := ordProbabilities_good q x (by omega) hs hn stable
    obtain ⟨l, hl, hl1, hl2⟩ := fin o (by rw [hp, List.length_map, hwl]) hg.lookup
    refine ⟨l, _, ?_, hv, hl1, by rw [hl2, hp]⟩
    simp only [ordSimple, if_neg hd1, if_neg hsing, ho, bind, Except.bind, hg.value b hb, pure, Except.pure]
    exact hl

example := C28_local_values stableSort [3, 1, 1, 5, 4, 0] 3 1 (by decide) (by decide) (by decide) false (.num 2) (by norm_num [Base.Valid])

/-- **C28** (finding) local values are not available — TypeError — for dimension 1, although the
global value is 0. -/
theorem C28_local_dim1_type_error (q : Argsort α) (x : List α) (s : Nat) (hs : 1 ≤ s) (hn : x ≠ [])
    (stable : Bool) (b : Base) :
    ordEntropy q [.arr1 x] { dim := .int 1, step := .int s, stable := stable } b = .ok 0 ∧
    ordEntropyLocal q [.arr1 x] { dim := .int 1, step := .int s, stable := stable } b = .error .typeError := by
  have h := ordInit_arr1 x (d := 1) (le_refl 1) hs (by simpa using List.length_pos_iff.2 hn) stable
  rw [Nat.cast_one] at h
  unfold ordEntropy ordEntropyLocal
  simp only [h, bind, Except.bind, ordSimple, if_true, Except.map, and_self]

example := C28_local_dim1_type_error stableSort [3, 1, 2, 5, 4, 0] 2 (by decide) (by decide) false .e

end

/-! ### Ties -/

theorem stable_le (a b : Int) (h : a ≤ b) : argsortStable [a, b] = [0, 1] := by
  have hp := (argsortStable_isArgsort [a, b]).perm
  have hs := argsortStable_stable [a, b]
  have : ∀ p : List Nat, p.Perm (List.range 2) → p = [0, 1] ∨ p = [1, 0] := by
    intro p hp
    have hl := hp.length_eq
    match p, hl with
    | [u, v], _ =>
      have hu : u ∈ List.range 2 := hp.mem_iff.1 (by simp)
      have hv : v ∈ List.range 2 := hp.mem_iff.1 (by simp)
      have hnd : [u, v].Nodup := hp.nodup_iff.2 List.nodup_range
      simp at hu hv hnd
      have : (u = 0 ∧ v = 1) ∨ (u = 1 ∧ v = 0) := by omega
      rcases this with ⟨rfl, rfl⟩ | ⟨rfl, rfl⟩ <;> simp
  rcases this _ hp with e | e
  · exact e
  · rw [e] at hs
    have : b < a ∨ b = a ∧ (1:Nat) < 0 := by simpa using hs
    omega

/-- **C28** (finding, ties) The dimension-2 fast path treats equal neighbours as descending and ignores
`stable`, so with `stable=True` it disagrees with the symbolisation used everywhere else: for the
series 1, 1, 2 the simple entropy is `log 2`, but the generic counting and the joint entropy of the
same single variable give 0. -/
theorem C28_ties_disagree (b : Base) (hb : b.Std) :
    let x : List Int := [1, 1, 2]
    let p : OrdParams := { dim := .int 2, stable := true }
    ∃ o, ordEntropy stableSort [.arr1 x] p b = .ok (Real.log 2 / b.ln) ∧
      ordGeneric stableSort x 2 1 true = .ok o ∧ ordSum b o.probs = .ok 0 ∧
      ordEntropy stableSort [.tup [x]] p b = .ok 0 ∧ Real.log 2 / b.ln ≠ 0 := by
  have hw : windows ([1, 1, 2] : List Int) 2 1 = [[1, 1], [1, 2]] := by decide
  have s1 := stable_le 1 1 (le_refl _)
  have s2 := stable_le 1 2 (by decide)
  obtain ⟨o, ho, hg, hp⟩ := ordGeneric_good (stableSort (α := Int)) [1, 1, 2] (d := 2) (s := 1) (by omega)
    (le_refl 1) (by decide) true
  refine ⟨o, ?_, ho, ?_, ?_, ?_⟩
  · have := ordEntropy_value (stableSort (α := Int)) [1, 1, 2] (d := 2) (s := 1) (by omega) (le_refl 1)
      (by decide) true hb.valid
    refine this.trans ?_
    rw [hw]
    have e : ([[1, 1], [1, 2]] : List (List Int)).map (ordLabel stableSort true 2 1) = [[1, 0], [0, 1]] := by
      decide
    rw [e, (entropy_eq_log_card_iff [[1, 0], [0, 1]] (by simp)).2 (by decide)]
    norm_num
  · rw [hg.value b hb.valid, hp, hw]
    simp only [List.map_cons, List.map_nil, sortFun, if_true, s1, s2]
    rw [(entropy_eq_zero_iff _).2 (by simp), zero_div]
  · have hi : ordInit [.tup [([1, 1, 2] : List Int)]] { dim := .int 2, stable := true } =
        .ok ([.tup [[1, 1, 2]]], (2 : Int), (1 : Int)) := by
      simp [ordInit, ordBaseInit, bind, Except.bind, pure, Except.pure, PyArg.intGe, PyArg.val]
    unfold ordEntropy
    simp only [hi, bind, Except.bind]
    unfold ordJoint
    have hsym := symbolizeInt_ok (stableSort (α := Int)) [1, 1, 2] (d := 2) (s := 1) (by omega) (by omega)
      (le_refl 1) (by decide) false
    rw [hw] at hsym
    have e : ∀ w, sortFun (stableSort (α := Int)) false w = argsortStable w := fun w => rfl
    simp only [List.map_cons, List.map_nil, e, s1, s2, Nat.cast_ofNat, Nat.cast_one] at hsym
    simp only [List.mapM_cons, List.mapM_nil, hsym, bind, Except.bind, pure, Except.pure]
    have hl : ((lehmer [0, 1] : Nat) : Int) = 0 := by decide
    rw [hl]
    have hc : columnStack [[(0 : Int), 0]] = .ok [[0], [0]] := by decide
    simp only [reduceJointSpace, hc, Except.map]
    have hne : (npInverse [[(0 : Int)], [0]]).map Int.ofNat ≠ [] := by simp [npInverse]
    rw [fromData_ok hne]
    simp only []
    have := discreteSimple_ok (xs := (npInverse [[(0 : Int)], [0]]).map Int.ofNat) hb.valid
    refine (show ordSum b _ = discreteSimple b _ from rfl).trans (this.trans ?_)
    rw [(entropy_eq_zero_iff _).2 (by simp [npInverse]), zero_div]
  · have := hb.ln_pos
    have : 0 < Real.log 2 := Real.log_pos (by norm_num)
    positivity

example := C28_ties_disagree (.num 2) (by norm_num [Base.Std])

/-! ### Joint ordinal entropy -/

section
variable {α : Type} [LinearOrder α] [Inhabited α]

omit [LinearOrder α] in
/-- window `t` of a series -/
theorem windows_getElem? (x : List α) (d s t : Nat) (ht : t < x.length - (d - 1) * s) :
    (windows x d s)[t]? = some ((List.range d).map (fun j => x.getD (t + j * s) default)) := by
  simp [windows, ht]

theorem ordJoint_value (q : Argsort α) (cols : List (List α)) (n d s : Nat) (hd : 1 ≤ d) (hd' : d ≤ 20)
    (hs : 1 ≤ s) (hne : cols ≠ []) (hl : ∀ c ∈ cols, c.length = n) (hn : (d - 1) * s < n) (b : Base)
    (hb : b.Valid) :
    ordJoint q cols d s b = .ok (entropy ((List.range (n - (d - 1) * s)).map (fun t =>
      cols.map (fun c => sortFun q false ((windows c d s).getD t [])))) / b.ln) := by
  unfold ordJoint
  have e1 : cols.mapM (fun c => symbolizeInt q c d s false)
      = .ok (cols.map (fun c => (windows c d s).map (fun w => (lehmer (sortFun q false w) : Int)))) := by
    refine mapM_ok _ fun c hc => ?_
    exact symbolizeInt_ok q c hd hd' hs (by rw [hl c hc]; exact hn) false
  have e2 := columnStack_ok (cols := cols.map (fun c => (windows c d s).map
    (fun w => (lehmer (sortFun q false w) : Int)))) (n := n - (d - 1) * s) (by simpa using hne) (by
      intro c hc
      obtain ⟨c', hc', rfl⟩ := List.mem_map.1 hc
      rw [List.length_map, windows_length, hl c' hc'])
  simp only [e1, bind, Except.bind, reduceJointSpace, e2, Except.map]
  have hne' : ∀ rows : List (List Int), rows.length = n - (d - 1) * s → (npInverse rows).map Int.ofNat ≠ [] := by
    intro rows hr h0
    have := congrArg List.length h0
    simp [hr] at this; omega
  rw [fromData_ok (hne' _ (by simp [Spec.rows]))]
  refine (show ordSum b _ = discreteSimple b _ from rfl).trans ((discreteSimple_ok hb).trans ?_)
  rw [entropy_inverse]
  congr 2
  unfold Spec.rows
  refine entropy_map_congr _ _ _ fun t ht u hu => ?_
  have ht := List.mem_range.1 ht
  have hu := List.mem_range.1 hu
  unfold Spec.row
  rw [List.map_map, List.map_map, List.map_inj_left, List.map_inj_left]
  refine forall₂_congr fun c hc => ?_
  have hw : (windows c d s).length = n - (d - 1) * s := by rw [windows_length, hl c hc]
  have ht' : t < (windows c d s).length := by omega
  have hu' : u < (windows c d s).length := by omega
  simp only [Function.comp, List.getD_eq_getElem?_getD, List.getElem?_map, List.getElem?_eq_getElem ht',
    List.getElem?_eq_getElem hu', Option.map_some, Option.getD_some]
  rw [Int.ofNat_inj]
  constructor
  · intro h
    exact lehmer_inj ((sortFun_perm_of_mem q false (List.getElem_mem ht')).trans
      (sortFun_perm_of_mem q false (List.getElem_mem hu')).symm) h
  · intro h; rw [h]

omit [LinearOrder α] in
theorem ordInit_tup (cols : List (List α)) (n : Nat) {d s : Nat} (hd : 1 ≤ d) (hs : 1 ≤ s)
    (hne : cols ≠ []) (hl : ∀ c ∈ cols, c.length = n) (hn : (d - 1) * s < n) (stable : Bool) :
    ordInit [.tup cols] { dim := .int d, step := .int s, stable := stable } = .ok ([.tup cols], (d : Int), (s : Int)) := by
  cases cols with
  | nil => exact absurd rfl hne
  | cons c cs =>
    have hc : c.length = n := hl c (by simp)
    have h3 : ¬ (((d : Int) - 1) * s + 1 > (c.length : Int)) := by
      have : ((d : Int) - 1) = ((d - 1 : Nat) : Int) := by omega
      rw [this, hc]
      intro h
      have : n < (d - 1) * s + 1 := by exact_mod_cast h
      omega
    have hs' : (1 : Int) ≤ s := by exact_mod_cast hs
    have hall : (c :: cs).all (fun d => decide (d.length = ((c :: cs).headD []).length)) = true := by
      rw [List.all_eq_true]
      intro e he
      simp [hl e he, hc]
    simp only [ordInit, ordBaseInit, hall, if_true, bind, Except.bind, pure, Except.pure, PyArg.intGe,
      PyArg.val, h3]
    simp [hs']

/-- **C28** The joint ordinal entropy of aligned tie-free series (dimension ≤ 20) is the Shannon
entropy of the tuples of simultaneous rank patterns. -/
theorem C28_joint_entropy_of_patterns (q : Argsort α) (cols : List (List α)) (n d s : Nat) (hd : 1 ≤ d)
    (hd' : d ≤ 20) (hs : 1 ≤ s) (hne : cols ≠ []) (hl : ∀ c ∈ cols, c.length = n) (hn : (d - 1) * s < n)
    (ht : ∀ c ∈ cols, TieFree c d s) (stable : Bool) (b : Base) (hb : b.Valid) :
    ordEntropy q [.tup cols] { dim := .int d, step := .int s, stable := stable } b
      = .ok (entropy ((List.range (n - (d - 1) * s)).map (fun t =>
          cols.map (fun c => rankPattern ((delayVectors c d s).getD t [])))) / b.ln) := by
  unfold ordEntropy
  simp only [ordInit_tup cols n hd hs hne hl hn stable, bind, Except.bind]
  rw [ordJoint_value q cols n d s hd hd' hs hne hl hn b hb]
  congr 2
  refine entropy_map_congr _ _ _ fun t ht' u hu' => ?_
  have h1 := List.mem_range.1 ht'
  have h2 := List.mem_range.1 hu'
  rw [List.map_inj_left, List.map_inj_left]
  refine forall₂_congr fun c hc => ?_
  have hw : (windows c d s).length = n - (d - 1) * s := by rw [windows_length, hl c hc]
  have t1 : t < (windows c d s).length := by omega
  have t2 : u < (windows c d s).length := by omega
  rw [← windows_eq]
  simp only [List.getD_eq_getElem?_getD, List.getElem?_eq_getElem t1, List.getElem?_eq_getElem t2,
    Option.getD_some]
  have m1 := List.getElem_mem t1
  have m2 := List.getElem_mem t2
  rw [rankPattern_eq_iff]
  exact sortFun_eq_iff q false (by rw [mem_windows_length m1, mem_windows_length m2])
    (ht c hc _ m1) (ht c hc _ m2)

example := C28_joint_entropy_of_patterns stableSort [[3, 1, 2, 5, 4, 0], [2, 7, 1, 5, 0, 3]] 6 3 1 (by decide) (by decide) (by decide) (by decide) (by decide) (by decide) (by unfold TieFree delayVectors; decide) false (.num 2) (by norm_num [Base.Valid])

/-- **C28** hence, without ties, the joint entropy of a single variable is its simple entropy. -/
theorem C28_joint_of_one_eq_simple (q : Argsort α) (x : List α) (d s : Nat) (hd : 1 ≤ d) (hd' : d ≤ 20)
    (hs : 1 ≤ s) (hn : (d - 1) * s < x.length) (ht : TieFree x d s) (stable : Bool) (b : Base)
    (hb : b.Valid) :
    ordEntropy q [.tup [x]] { dim := .int d, step := .int s, stable := stable } b
      = ordEntropy q [.arr1 x] { dim := .int d, step := .int s, stable := stable } b := by
  rw [C28_joint_entropy_of_patterns q [x] x.length d s hd hd' hs (by simp) (by simp) hn (by simpa using ht)
    stable b hb, C28_ordinal_entropy_is_permutation_entropy q x d s hd hs hn ht stable b hb]
  congr 2
  have e : (delayVectors x d s).map rankPattern = (List.range (x.length - (d - 1) * s)).map
      (fun t => rankPattern ((delayVectors x d s).getD t [])) := by
    refine List.ext_getElem (by simp [delayVectors]) fun i h1 h2 => ?_
    have hi : i < (delayVectors x d s).length := by simpa using h1
    simp [List.getElem?_eq_getElem hi]
  rw [permEntropy, e]
  exact entropy_map_congr _ _ _ fun u _ v _ => by simp

example := C28_joint_of_one_eq_simple stableSort [3, 1, 2, 5, 4, 0] 3 1 (by decide) (by decide) (by decide) (by decide) (by unfold TieFree delayVectors; decide) false (.num 2) (by norm_num [Base.Valid])

/-- **C28** (finding) joint ordinal entropy has no local values: asking for them is a TypeError. -/
theorem C28_joint_local_type_error (q : Argsort α) (cols : List (List α)) (n d s : Nat) (hd : 1 ≤ d)
    (hd' : d ≤ 20) (hs : 1 ≤ s) (hne : cols ≠ []) (hl : ∀ c ∈ cols, c.length = n) (hn : (d - 1) * s < n)
    (stable : Bool) (b : Base) (hb : b.Valid) :
    ordEntropyLocal q [.tup cols] { dim := .int d, step := .int s, stable := stable } b = .error .typeError := by
  unfold ordEntropyLocal
  simp only [ordInit_tup cols n hd hs hne hl hn stable, bind, Except.bind,
    ordJoint_value q cols n d s hd hd' hs hne hl hn b hb]

example := C28_joint_local_type_error stableSort [[3, 1, 2, 5, 4, 0], [2, 7, 1, 5, 0, 3]] 6 3 1 (by decide) (by decide) (by decide) (by decide) (by decide) (by decide) false (.num 2) (by norm_num [Base.Valid])

/-- **C28** joint ordinal entropy with dimension above 20 is a ValueError (the codes do not fit), while
the simple entropy has no such limit (`C28_ordinal_entropy_is_permutation_entropy`). -/
theorem C28_joint_dim_limit (q : Argsort α) (cols : List (List α)) (n d s : Nat) (hd : 20 < d)
    (hs : 1 ≤ s) (hne : cols ≠ []) (hl : ∀ c ∈ cols, c.length = n) (hn : (d - 1) * s < n)
    (stable : Bool) (b : Base) :
    ordEntropy q [.tup cols] { dim := .int d, step := .int s, stable := stable } b = .error .valueError := by
  unfold ordEntropy
  simp only [ordInit_tup cols n (by omega) hs hne hl hn stable, bind, Except.bind]
  cases cols with
  | nil => exact absurd rfl hne
  | cons c cs =>
    have hc : c.length = n := hl c (by simp)
    have hfail : symbolizeInt q c d s false = .error .valueError := by
      unfold symbolizeInt
      rw [symbolize_ok q c (by omega) hs (by rw [hc]; exact hn) false]
      simp only [bind, Except.bind]
      have hpos : 0 < (windows c d s).length := by rw [windows_length, hc]; omega
      obtain ⟨w, ws, hws⟩ := List.exists_cons_of_length_pos hpos
      have hw : w ∈ windows c d s := by rw [hws]; simp
      have hlong : 20 < (sortFun q false w).length := by
        rw [(sortFun_isArgsort q false w).length, mem_windows_length hw]; exact hd
      simp only [hws, List.map_cons, List.mapM_cons, C26_long_patterns_rejected _ hlong, bind, Except.bind]
    simp only [ordJoint, List.mapM_cons, hfail, bind, Except.bind]

example := C28_joint_dim_limit stableSort [List.range 30, List.range 30] 30 21 1 (by decide) (by decide) (by simp) (by simp) (by decide) false .e

end

example : TieFree ([4, 7, 9, 10, 6, 11, 3] : List Int) 2 1 ∧ TieFree ([1, 2, 0, 4, 3, 8, 5] : List Int) 2 1 := by
  constructor <;> (unfold TieFree; decide)

/-! ## C29 -/

section
variable {α : Type} [LinearOrder α] [Inhabited α]

theorem lab3_perm (w : List α) : (lab3 w).Perm (List.range 3) := by
  have key : ∀ k : Bool × Bool × Bool, num3 k = [] ∨ (num3 k).Perm (List.range 3) := by decide
  rcases key (key3 w) with h | h
  · have hk : ∀ k : Bool × Bool × Bool, boolToNum k ≠ .ok [] := by
      rintro ⟨_ | _, _ | _, _ | _⟩ <;> simp [boolToNum]
    exact absurd ((boolToNum_key3 w).trans (by rw [lab3, h])) (hk _)
  · exact h

theorem ordLabel_perm (q : Argsort α) (stable : Bool) {d s : Nat} {w : List α} (hw : w.length = d) :
    (ordLabel q stable d s w).Perm (List.range d) := by
  unfold ordLabel
  split_ifs with h2 h3
  · rw [h2.1]; unfold lab2; split_ifs <;> decide
  · rw [h3.1]; exact lab3_perm w
  · have := (sortFun_isArgsort q stable w).perm
    rwa [hw] at this

/-- **C29** For every series (ties allowed), dimension and step with at least one window:
`0 ≤ H ≤ log_b(d!)`, and also `H ≤ log_b` of the number of windows. -/
theorem C29_bounds (q : Argsort α) (x : List α) (d s : Nat) (hd : 1 ≤ d) (hs : 1 ≤ s)
    (hn : (d - 1) * s < x.length) (stable : Bool) (b : Base) (hb : b.Std) :
    ∃ H, ordEntropy q [.arr1 x] { dim := .int d, step := .int s, stable := stable } b = .ok H ∧
      0 ≤ H ∧ H ≤ Real.log d.factorial / b.ln ∧
      H ≤ Real.log ((x.length - (d - 1) * s : ℕ) : ℝ) / b.ln := by
  refine ⟨_, ordEntropy_value q x hd hs hn stable hb.valid, div_nonneg (entropy_nonneg _) hb.ln_pos.le, ?_, ?_⟩
  · refine div_le_div_of_nonneg_right ?_ hb.ln_pos.le
    have hne : (windows x d s).map (ordLabel q stable d s) ≠ [] := by
      intro h; have := congrArg List.length h; simp [windows] at this; omega
    refine (entropy_le_log_card _ hne).trans (Real.log_le_log ?_ ?_)
    · have : 0 < ((windows x d s).map (ordLabel q stable d s)).toFinset.card := by
        rw [Finset.card_pos, List.toFinset_nonempty_iff]; exact hne
      exact_mod_cast this
    · have hsub : ((windows x d s).map (ordLabel q stable d s)).toFinset ⊆ (List.range d).permutations.toFinset := by
        intro p hp
        rw [List.mem_toFinset] at hp
        obtain ⟨w, hw, rfl⟩ := List.mem_map.1 hp
        rw [List.mem_toFinset, List.mem_permutations]
        exact ordLabel_perm q stable (mem_windows_length hw)
      have h1 := Finset.card_le_card hsub
      rw [List.toFinset_card_of_nodup (List.nodup_permutations _ List.nodup_range),
        List.length_permutations, List.length_range] at h1
      exact_mod_cast h1
  · refine div_le_div_of_nonneg_right ?_ hb.ln_pos.le
    have hne : (windows x d s).map (ordLabel q stable d s) ≠ [] := by
      intro h; have := congrArg List.length h; simp [windows] at this; omega
    refine (entropy_le_log_card _ hne).trans (Real.log_le_log ?_ ?_)
    · have : 0 < ((windows x d s).map (ordLabel q stable d s)).toFinset.card := by
        rw [Finset.card_pos, List.toFinset_nonempty_iff]; exact hne
      exact_mod_cast this
    · have h1 := List.toFinset_card_le ((windows x d s).map (ordLabel q stable d s))
      rw [List.length_map, windows_length] at h1
      exact_mod_cast h1

example := C29_bounds stableSort [3, 1, 1, 5, 4, 0] 3 1 (by decide) (by decide) (by decide) false (.num 2) (by norm_num [Base.Std])

/-- **C29** dimension 1: the entropy is 0. -/
theorem C29_dim_one_zero (q : Argsort α) (x : List α) (s : Nat) (hs : 1 ≤ s) (hn : x ≠ [])
    (stable : Bool) (b : Base) :
    ordEntropy q [.arr1 x] { dim := .int 1, step := .int s, stable := stable } b = .ok 0 :=
  (C28_local_dim1_type_error q x s hs hn stable b).1

example := C29_dim_one_zero stableSort [3, 1, 2, 5, 4, 0] 2 (by decide) (by decide) false .e

/-- **C29** strictly increasing or strictly decreasing series have entropy 0, for every dimension and
step. -/
theorem C29_monotone_zero (q : Argsort α) (x : List α) (d s : Nat) (hd : 1 ≤ d) (hs : 1 ≤ s)
    (hn : (d - 1) * s < x.length) (hx : x.Pairwise (· < ·) ∨ x.Pairwise (· > ·)) (stable : Bool) (b : Base)
    (hb : b.Valid) :
    ordEntropy q [.arr1 x] { dim := .int d, step := .int s, stable := stable } b = .ok 0 := by
  rw [ordEntropy_value q x hd hs hn stable hb]
  have bound : ∀ i j, i < x.length - (d - 1) * s → j < d → i + j * s < x.length := by
    intro i j hi hj
    have : j * s ≤ (d - 1) * s := Nat.mul_le_mul_right s (by omega)
    omega
  have hlt : ∀ i j k, i < x.length - (d - 1) * s → j < d → k < d →
      (j < k → i + j * s < i + k * s) := by
    intro i j k _ _ _ h
    have := Nat.mul_lt_mul_of_pos_right h (show 0 < s by omega)
    omega
  -- comparisons inside a window depend on the positions only
  have cmp : ∃ P : Nat → Nat → Prop, (∀ j k, P j k → P k j → j = k) ∧
      ∀ i j k, i < x.length - (d - 1) * s → j < d → k < d →
      (x.getD (i + j * s) default ≤ x.getD (i + k * s) default ↔ P j k) := by
    rcases hx with hx | hx
    · refine ⟨fun j k => j ≤ k, fun j k h1 h2 => le_antisymm h1 h2, fun i j k hi hj hk => ?_⟩
      rw [List.pairwise_iff_getElem] at hx
      rw [getD_lt (bound i j hi hj), getD_lt (bound i k hi hk)]
      rcases lt_trichotomy j k with h | h | h
      · have := hx _ _ (bound i j hi hj) (bound i k hi hk) (hlt i j k hi hj hk h)
        exact ⟨fun _ => h.le, fun _ => this.le⟩
      · subst h; simp
      · have := hx _ _ (bound i k hi hk) (bound i j hi hj) (hlt i k j hi hk hj h)
        exact ⟨fun h' => absurd h' (not_le.2 this), fun h' => absurd h' (by omega)⟩
    · refine ⟨fun j k => k ≤ j, fun j k h1 h2 => le_antisymm h2 h1, fun i j k hi hj hk => ?_⟩
      rw [List.pairwise_iff_getElem] at hx
      rw [getD_lt (bound i j hi hj), getD_lt (bound i k hi hk)]
      rcases lt_trichotomy j k with h | h | h
      · have := hx _ _ (bound i j hi hj) (bound i k hi hk) (hlt i j k hi hj hk h)
        exact ⟨fun h' => absurd h' (not_le.2 this), fun h' => absurd h' (by omega)⟩
      · subst h; simp
      · have := hx _ _ (bound i k hi hk) (bound i j hi hj) (hlt i k j hi hk hj h)
        exact ⟨fun _ => h.le, fun _ => this.le⟩
  obtain ⟨P, hP, cmp⟩ := cmp
  have hget : ∀ i j, j < d → ((List.range d).map (fun j => x.getD (i + j * s) default)).getD j default
      = x.getD (i + j * s) default := by
    intro i j hj; simp [hj]
  have hnd : ∀ w ∈ windows x d s, w.Nodup := by
    intro w hw
    obtain ⟨i, hi, rfl⟩ := List.mem_map.1 hw
    have hi := List.mem_range.1 hi
    refine List.Nodup.map_on ?_ List.nodup_range
    intro j hj k hk h
    have hj := List.mem_range.1 hj
    have hk := List.mem_range.1 hk
    exact hP j k ((cmp i j k hi hj hk).1 h.le) ((cmp i k j hi hk hj).1 h.ge)
  have : entropy ((windows x d s).map (ordLabel q stable d s)) = 0 := by
    rw [entropy_eq_zero_iff]
    intro a ha c hc
    obtain ⟨v, hv, rfl⟩ := List.mem_map.1 ha
    obtain ⟨w, hw, rfl⟩ := List.mem_map.1 hc
    rw [ordLabel_eq_iff q stable (mem_windows_length hv) (mem_windows_length hw) (hnd v hv) (hnd w hw)]
    obtain ⟨i, hi, rfl⟩ := List.mem_map.1 hv
    obtain ⟨i', hi', rfl⟩ := List.mem_map.1 hw
    refine ⟨by simp, fun j hj k hk => ?_⟩
    have hj : j < d := by simpa using hj
    have hk : k < d := by simpa using hk
    rw [hget i j hj, hget i k hk, hget i' j hj, hget i' k hk, cmp i j k (List.mem_range.1 hi) hj hk,
      cmp i' j k (List.mem_range.1 hi') hj hk]
  rw [this, zero_div]

example := C29_monotone_zero stableSort [9, 6, 5, 1] 3 1 (by decide) (by decide) (by decide) (.inr (by decide)) false (.num 2) (by norm_num [Base.Valid])

/-- **C29** without ties the entropy is 0 only if all windows show one rank pattern. -/
theorem C29_zero_iff_one_pattern (q : Argsort α) (x : List α) (d s : Nat) (hd : 1 ≤ d) (hs : 1 ≤ s)
    (hn : (d - 1) * s < x.length) (ht : TieFree x d s) (stable : Bool) (b : Base) (hb : b.Valid) :
    ordEntropy q [.arr1 x] { dim := .int d, step := .int s, stable := stable } b = .ok 0 ↔
      ∀ v ∈ delayVectors x d s, ∀ w ∈ delayVectors x d s, rankPattern v = rankPattern w := by
  rw [C28_ordinal_entropy_is_permutation_entropy q x d s hd hs hn ht stable b hb, Except.ok.injEq,
    div_eq_zero_iff, or_iff_left hb.ln_ne, permEntropy, entropy_eq_zero_iff]
  constructor
  · intro h v hv w hw
    exact h _ (List.mem_map.2 ⟨v, hv, rfl⟩) _ (List.mem_map.2 ⟨w, hw, rfl⟩)
  · intro h a ha c hc
    obtain ⟨v, hv, rfl⟩ := List.mem_map.1 ha
    obtain ⟨w, hw, rfl⟩ := List.mem_map.1 hc
    exact h v hv w hw

example := C29_zero_iff_one_pattern stableSort [3, 1, 2, 5, 4, 0] 3 1 (by decide) (by decide) (by decide) (by unfold TieFree delayVectors; decide) false (.num 2) (by norm_num [Base.Valid])

/-- **C29** invalid parameters are rejected: a window that does not fit, a step below 1, a dimension
that is negative or not an integer: ValueError; data that are not one-dimensional: TypeError. -/
theorem C29_rejects (q : Argsort α) (x : List α) (p : OrdParams) (b : Base) :
    (p.dim.intGe 0 = false → ordEntropy q [.arr1 x] p b = .error .valueError) ∧
    (p.step.intGe 1 = false → ordEntropy q [.arr1 x] p b = .error .valueError) ∧
    (∀ d s : Nat, 1 ≤ s → x.length ≤ (d - 1) * s → 1 ≤ d →
      ordEntropy q [.arr1 x] { p with dim := .int d, step := .int s } b = .error .valueError) ∧
    ordEntropy q [.arrN] p b = .error .typeError := by
  refine ⟨fun h => ?_, fun h => ?_, fun d s hs h hd => ?_, ?_⟩
  · simp [ordEntropy, ordInit, ordBaseInit, bind, Except.bind, h]
  · by_cases h0 : p.dim.intGe 0 = false
    · simp [ordEntropy, ordInit, ordBaseInit, bind, Except.bind, h0]
    · simp only [Bool.not_eq_false] at h0
      simp [ordEntropy, ordInit, ordBaseInit, bind, Except.bind, h0, h]
  · have hs' : (1 : Int) ≤ s := by exact_mod_cast hs
    have h3 : ((d : Int) - 1) * s + 1 > (x.length : Int) := by
      have : ((d : Int) - 1) = ((d - 1 : Nat) : Int) := by omega
      rw [this]
      have : x.length < (d - 1) * s + 1 := by omega
      exact_mod_cast this
    simp [ordEntropy, ordInit, ordBaseInit, bind, Except.bind, PyArg.intGe, PyArg.val, hs', h3]
  · simp [ordEntropy, ordInit, ordBaseInit, bind, Except.bind]

example := (C29_rejects stableSort [3, 1, 2, 5, 4, 0] { dim := .int 3 } .e).2.2.1 4 2 (by decide) (by decide) (by decide)
example := (C29_rejects stableSort [3, 1, 2, 5, 4, 0] { dim := .int (-1) } .e).1 (by decide)

end

example : ([1, 3, 4, 9] : List Int).Pairwise (· < ·) ∧ (2 - 1) * 1 < ([1, 3, 4, 9] : List Int).length ∧
    Base.Std (.num 2) := ⟨by decide, by decide, by norm_num [Base.Std]⟩

end Verif
