import Verif.Lemmas.Entropy

/-! # Properties C07, C08 : joint spaces and joint entropy -/

namespace Verif

open Spec

/-- **C07** Reducing aligned variables to codes succeeds, keeps the number of samples, and two
positions get equal codes exactly when their joint rows agree. -/
theorem C07_reduce_tuple_lossless (cols : List (List Int)) (n : Nat) (hne : cols ≠ [])
    (hl : ∀ c ∈ cols, c.length = n) :
    ∃ codes, reduceJointSpace (.tup cols) = .ok codes ∧ codes.length = n ∧
      ∀ s t, s < n → t < n →
        (codes[s]? = codes[t]? ↔ ∀ c ∈ cols, c[s]? = c[t]?) := by
  refine ⟨(npInverse (Spec.rows n cols)).map Int.ofNat, ?_, ?_, ?_⟩
  · simp only [reduceJointSpace, columnStack_ok hne hl]; rfl
  · simp [Spec.rows]
  · intro s t hs ht
    have key : ∀ u, u < n → ((npInverse (Spec.rows n cols)).map Int.ofNat)[u]? =
        some (Int.ofNat (npPos (Spec.rows n cols) (Spec.row cols u))) := by
      intro u hu
      simp only [npInverse, List.getElem?_map]
      simp only [Spec.rows, List.getElem?_map, List.getElem?_range hu,
        Option.map_some]
    rw [key s hs, key t ht, Option.some_inj, Int.ofNat.injEq]
    have mem : ∀ u, u < n → Spec.row cols u ∈ Spec.rows n cols := fun u hu =>
      List.mem_map.2 ⟨u, List.mem_range.2 hu, rfl⟩
    rw [npPos_inj (mem s hs) (mem t ht)]
    unfold Spec.row
    rw [List.map_inj_left]
    constructor
    · intro h c hc
      have h1 := h c hc
      have hsl : s < c.length := by rw [hl c hc]; exact hs
      have htl : t < c.length := by rw [hl c hc]; exact ht
      rw [List.getD_eq_getElem?_getD, List.getD_eq_getElem?_getD, List.getElem?_eq_getElem hsl,
        List.getElem?_eq_getElem htl] at h1
      rw [List.getElem?_eq_getElem hsl, List.getElem?_eq_getElem htl]
      exact congrArg some h1
    · intro h c hc
      have h1 := h c hc
      simp only [List.getD_eq_getElem?_getD, h1]

example := C07_reduce_tuple_lossless [[5, 7, 5], [0, 0, 1]] 3 (by decide) (by decide)

/-- **C07** same for a two-dimensional array: equal codes exactly for equal rows. -/
theorem C07_reduce_array_lossless (rows : List (List Int)) :
    ∃ codes, reduceJointSpace (.arr2 rows) = .ok codes ∧ codes.length = rows.length ∧
      ∀ s t, s < rows.length → t < rows.length →
        (codes[s]? = codes[t]? ↔ rows[s]? = rows[t]?) := by
  refine ⟨(npInverse rows).map Int.ofNat, rfl, by simp, ?_⟩
  intro s t hs ht
  simp only [npInverse, List.getElem?_map, List.getElem?_eq_getElem hs, List.getElem?_eq_getElem ht,
    Option.map_some, Option.some_inj, Int.ofNat.injEq]
  exact npPos_inj (List.getElem_mem hs) (List.getElem_mem ht)

/-- **C07** codes are `0 … K−1` with every code used, `K` the number of distinct rows. -/
theorem C07_codes_range (rows : List (List Int)) (codes : List Int)
    (h : reduceJointSpace (.arr2 rows) = .ok codes) (c : Int) :
    c ∈ codes ↔ 0 ≤ c ∧ c < rows.toFinset.card := by
  have hk : (npUnique rows).length = rows.toFinset.card := by
    rw [npUnique_length]; congr!
  cases h
  rw [← hk]
  constructor
  · intro hc
    obtain ⟨k, hk, rfl⟩ := List.mem_map.1 hc
    obtain ⟨r, hr, rfl⟩ := List.mem_map.1 hk
    refine ⟨Int.natCast_nonneg _, ?_⟩
    exact Int.ofNat_lt.2 (npPos_lt hr)
  · rintro ⟨h0, h1⟩
    obtain ⟨k, rfl⟩ := Int.eq_ofNat_of_zero_le h0
    have hk : k < (npUnique rows).length := by exact_mod_cast h1
    refine List.mem_map.2 ⟨k, List.mem_map.2 ⟨(npUnique rows)[k], mem_npUnique.1 (List.getElem_mem hk), ?_⟩, rfl⟩
    exact npPos_getElem rows k hk

example : ∃ codes, reduceJointSpace (.arr2 [[5, 0], [7, 0], [5, 0]]) = .ok codes ∧ ∀ c, c ∈ codes ↔ 0 ≤ c ∧ c < 2 := by
  obtain ⟨codes, h, _⟩ := C07_reduce_array_lossless [[5, 0], [7, 0], [5, 0]]
  exact ⟨codes, h, fun c => by simpa using C07_codes_range _ codes h c⟩

/-- **C07** a one-dimensional array is returned unchanged; a Python list, or an array with another
number of dimensions, is a ValueError. -/
theorem C07_reduce_other (xs : List Int) :
    reduceJointSpace (.arr1 xs) = .ok xs ∧ reduceJointSpace .pyList = .error .valueError ∧
      reduceJointSpace .arrOther = .error .valueError := ⟨rfl, rfl, rfl⟩

example : ∃ cols : List (List Int), cols ≠ [] ∧ (∀ c ∈ cols, c.length = 3) ∧ cols.length = 2 :=
  ⟨[[1, 2, 1], [0, 0, 5]], by decide, by decide, rfl⟩

theorem jointEntropy_ok {cols : List (List Int)} {n : Nat} (hn : 0 < n) (hne : cols ≠ [])
    (hl : ∀ c ∈ cols, c.length = n) {b : Base} (hb : b.Valid) :
    discreteEntropy [.tup cols] b = .ok (Spec.entropy (Spec.rows n cols) / b.ln) := by
  have h1 : cols.all (fun d => decide (d.length = (cols.headD []).length)) = true := by
    rw [List.all_eq_true]
    intro d hd
    cases cols with
    | nil => exact absurd rfl hne
    | cons c cs => simp [hl d hd, hl c (by simp)]
  have hx : (npInverse (Spec.rows n cols)).map Int.ofNat ≠ [] := by
    intro h
    have := congrArg List.length h
    simp [Spec.rows] at this; omega
  have h2 : reduceVar (.tup cols) = .ok ((npInverse (Spec.rows n cols)).map Int.ofNat) := by
    simp only [reduceVar, reduceJointSpace, columnStack_ok hne hl]; rfl
  simp only [discreteEntropy, discreteHInit, entropyInit, h1, if_true, bind, Except.bind,
    List.mapM_cons, List.mapM_nil, h2, fromData_ok hx, pure, Except.pure, entropyDispatch,
    discreteSimple_ok hb, entropy_inverse]

/-- **C08** The joint entropy of aligned variables is the Shannon entropy of the joint rows. -/
theorem C08_joint_entropy_eq_rows (cols : List (List Int)) (n : Nat) (hn : 0 < n) (hne : cols ≠ [])
    (hl : ∀ c ∈ cols, c.length = n) (b : Base) (hb : b.Valid) :
    discreteEntropy [.tup cols] b = .ok (Spec.entropy (Spec.rows n cols) / b.ln) :=
  jointEntropy_ok hn hne hl hb

example := C08_joint_entropy_eq_rows [[5, 7, 5], [0, 0, 1]] 3 (by decide) (by decide) (by decide) (.num 2) (by norm_num [Base.Valid])

theorem col_eq_map_range (c : List Int) : c = (List.range c.length).map (fun t => c.getD t default) := by
  refine List.ext_getElem (by simp) fun i h1 h2 => ?_
  simp [List.getElem?_eq_getElem h1]

/-- **C08** the order of the variables inside the joint variable is irrelevant. -/
theorem C08_joint_entropy_order (cols cols' : List (List Int)) (hp : cols.Perm cols') (n : Nat)
    (hn : 0 < n) (hne : cols ≠ []) (hl : ∀ c ∈ cols, c.length = n) (b : Base) (hb : b.Valid) :
    discreteEntropy [.tup cols] b = discreteEntropy [.tup cols'] b := by
  have hne' : cols' ≠ [] := by rintro rfl; exact hne (List.Perm.eq_nil hp)
  have hl' : ∀ c ∈ cols', c.length = n := fun c hc => hl c (hp.mem_iff.2 hc)
  rw [jointEntropy_ok hn hne hl hb, jointEntropy_ok hn hne' hl' hb]
  have : entropy (Spec.rows n cols) = entropy (Spec.rows n cols') := by
    refine entropy_map_congr _ _ _ fun u _ v _ => ?_
    unfold Spec.row
    rw [List.map_inj_left, List.map_inj_left]
    exact ⟨fun h c hc => h c (hp.mem_iff.2 hc), fun h c hc => h c (hp.mem_iff.1 hc)⟩
  rw [this]

example := C08_joint_entropy_order [[5, 7, 5], [0, 0, 1]] [[0, 0, 1], [5, 7, 5]] (by decide) 3 (by decide) (by decide) (by decide) (.num 2) (by norm_num [Base.Valid])

/-- entropy of rows is at most the sum of the column entropies -/
theorem entropy_rows_le_sum (n : Nat) (cols : List (List Int)) (hl : ∀ c ∈ cols, c.length = n) :
    entropy (Spec.rows n cols) ≤ (cols.map entropy).sum := by
  induction cols with
  | nil =>
    have : Spec.rows n ([] : List (List Int)) = (List.range n).map (fun _ => []) := rfl
    rw [this, entropy_map_const]; simp
  | cons c cs ih =>
    have h1 : entropy (Spec.rows n (c :: cs)) =
        entropy ((List.range n).map (fun t => (c.getD t default, Spec.row cs t))) := by
      refine entropy_map_congr _ _ _ fun u _ v _ => ?_
      simp [Spec.row]
    have h2 := entropy_pair_le (List.range n) (fun t => c.getD t default) (Spec.row cs)
    have h3 : (List.range n).map (fun t => c.getD t default) = c := by
      have := col_eq_map_range c
      rw [hl c (by simp)] at this; exact this.symm
    rw [h3] at h2
    have h4 := ih (fun d hd => hl d (by simp [hd]))
    rw [h1, List.map_cons, List.sum_cons]
    unfold Spec.rows at h4
    linarith

/-- **C08** the joint entropy is at least every marginal entropy and at most their sum. -/
theorem C08_joint_entropy_bounds (cols : List (List Int)) (n : Nat) (hn : 0 < n) (hne : cols ≠ [])
    (hl : ∀ c ∈ cols, c.length = n) (b : Base) (hb : b.Std) :
    ∃ HJ, discreteEntropy [.tup cols] b = .ok HJ ∧
      (∀ c ∈ cols, ∃ Hc, discreteEntropy [.arr1 c] b = .ok Hc ∧ Hc ≤ HJ) ∧
      ∃ Hs : List ℝ, cols.mapM (fun c => discreteEntropy [.arr1 c] b) = .ok Hs ∧ HJ ≤ Hs.sum := by
  have hcne : ∀ c ∈ cols, c ≠ [] := fun c hc h0 => by
    have := hl c hc; rw [h0] at this; simp at this; omega
  refine ⟨_, jointEntropy_ok hn hne hl hb.valid, ?_, ?_⟩
  · intro c hc
    refine ⟨_, discreteEntropy_arr1 (hcne c hc) hb.valid, div_le_div_of_nonneg_right ?_ hb.ln_pos.le⟩
    have h3 : (List.range n).map (fun t => c.getD t default) = c := by
      have := col_eq_map_range c
      rw [hl c hc] at this; exact this.symm
    have := entropy_map_le (List.range n) (Spec.row cols) (fun t => c.getD t default)
      (fun u _ v _ h => List.map_inj_left.1 h c hc)
    rw [h3] at this
    exact this
  · refine ⟨cols.map (fun c => entropy c / b.ln), mapM_ok _ fun c hc =>
      discreteEntropy_arr1 (hcne c hc) hb.valid, ?_⟩
    rw [sum_map_div']
    exact div_le_div_of_nonneg_right (entropy_rows_le_sum n cols hl) hb.ln_pos.le

example := C08_joint_entropy_bounds [[5, 7, 5], [0, 0, 1]] 3 (by decide) (by decide) (by decide) (.num 2) (by norm_num [Base.Std])

/-- one argument is accepted if it is an array or a non-empty tuple of equally long variables, two arguments if both are arrays -/
def EntropyArgsOk : List EInput → Prop
  | [.arr1 _] | [.arr2 _] => True
  | [.tup cols] => cols ≠ [] ∧ ∀ c ∈ cols, ∀ d ∈ cols, c.length = d.length
  | [.arr1 _, .arr1 _] | [.arr1 _, .arr2 _] | [.arr2 _, .arr1 _] | [.arr2 _, .arr2 _] => True
  | _ => False

/-- **C08** any other argument list is a ValueError: more than two arguments, a tuple beside another argument, something that
is not an array, joint variables of different length.  No argument at all is an IndexError (`C08_no_argument`). -/
theorem C08_argument_errors (args : List EInput) (h : ¬ EntropyArgsOk args) (hne : args ≠ []) (b : Base) :
    discreteEntropy args b = .error .valueError := by
  have key : discreteHInit args = .error .valueError := by
    unfold discreteHInit
    match args with
    | [] => exact absurd rfl hne
    | [.arr1 _] => exact absurd trivial h
    | [.arr2 _] => exact absurd trivial h
    | [.other] => rfl
    | [.tup cols] =>
      by_cases hall : cols.all (fun d => decide (d.length = (cols.headD []).length)) = true
      · cases cols with
        | nil => rfl
        | cons c cs =>
          exfalso
          refine h ⟨by simp, ?_⟩
          rw [List.all_eq_true] at hall
          intro x hx y hy
          have h1 := of_decide_eq_true (hall x hx)
          have h2 := of_decide_eq_true (hall y hy)
          rw [h1, h2]
      · simp only [entropyInit, hall, bind, Except.bind, Bool.false_eq_true, if_false]
    | [.arr1 _, .arr1 _] => exact absurd trivial h
    | [.arr1 _, .arr2 _] => exact absurd trivial h
    | [.arr2 _, .arr1 _] => exact absurd trivial h
    | [.arr2 _, .arr2 _] => exact absurd trivial h
    | [.tup _, a] => cases a <;> rfl
    | [.other, a] => cases a <;> rfl
    | [.arr1 _, .tup _] => rfl
    | [.arr1 _, .other] => rfl
    | [.arr2 _, .tup _] => rfl
    | [.arr2 _, .other] => rfl
    | _ :: _ :: _ :: _ => rfl
  simp only [discreteEntropy, key, bind, Except.bind]

example := C08_argument_errors [.arr1 [1, 2], .tup [[3], [4]]] (by simp [EntropyArgsOk]) (by simp) .e

/-- **C08** a call without data is an IndexError, not the ValueError of the documented check. -/
theorem C08_no_argument (b : Base) : discreteEntropy [] b = .error .indexError := rfl

/-- joint variables of different length are such a case -/
theorem C08_unequal_lengths (cols : List (List Int)) (c d : List Int) (hc : c ∈ cols) (hd : d ∈ cols) (h : c.length ≠ d.length) (b : Base) :
    discreteEntropy [.tup cols] b = .error .valueError :=
  C08_argument_errors [.tup cols] (fun hok => h (hok.2 c hc d hd)) (by simp) b

example := C08_unequal_lengths [[5, 7, 5], [0, 0]] [5, 7, 5] [0, 0] (by decide) (by decide) (by decide) .e

end Verif
