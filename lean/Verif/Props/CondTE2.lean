import Verif.Props.CondTE
import Verif.Props.TEArgs

/-!
# C75 (continued): forms of the condition, special conditions, local values, the ordinal estimator
-/

namespace Verif

open Spec

/-! ## Forms of the condition -/

theorem specRows_shape (n : Nat) {cols : List (List Int)} (hne : cols ≠ []) : VecShape cols.length (Spec.rows n cols) := by
  refine ⟨List.length_pos_of_ne_nil hne, fun v hv => ?_⟩
  obtain ⟨t, -, rfl⟩ := List.mem_map.1 hv
  simp [Spec.row]

/-- what the plug-in estimator makes of a two-dimensional array or a tuple -/
theorem condRows_codes (rs : List (List Int)) :
    condSeriesRows false (.rows true rs) = .ok ((rs.map (Int.ofNat ∘ npPos rs)).map (fun x => [x])) := by
  simp only [condSeriesRows, and_self, if_true, reduceJointSpace, Except.map]
  rw [← rowCodes_eq]; rfl

theorem singles_map (xs : List (List Int)) (χ : List Int → Int) :
    xs.map (fun v => [χ v]) = (xs.map χ).map (fun x => [x]) := by rw [List.map_map]; rfl

theorem singles_shape (xs : List Int) : VecShape 1 (xs.map (fun x => [x])) := by
  refine ⟨Nat.one_pos, fun v hv => ?_⟩
  obtain ⟨x, -, rfl⟩ := List.mem_map.1 hv
  rfl

/-- **C75** Any vectors may be given as a condition in any form: for the plug-in estimator a two-dimensional array and the same nested
list give the same result, and so does the one-dimensional condition that gives every distinct vector its own label. -/
theorem C75_condition_array_list_labels (source dest rs : List (List Int)) (m n o : Nat) (hx : VecShape m source)
    (hy : VecShape n dest) (hz : VecShape o rs) (hov : dest.length < 2 ^ 32) (χ : List Int → Int)
    (hχ : ∀ u ∈ rs, ∀ v ∈ rs, χ u = χ v → u = v) (p : TEParams) (ch : PyArg) (pt off : Option PyArg) (b : Base) (hb : b.Valid)
    (mm : Bool) :
    discreteCTEOf source dest (.rows true rs) p ch pt off b mm = discreteCTEVec source dest (some rs) p ch pt off b mm ∧
    discreteCTEOf source dest (.rows false rs) p ch pt off b mm = discreteCTEVec source dest (some rs) p ch pt off b mm ∧
    discreteCTEOf source dest (.one (rs.map χ)) p ch pt off b mm = discreteCTEVec source dest (some rs) p ch pt off b mm := by
  have key : ∀ ψ : List Int → Int, (∀ u ∈ rs, ∀ v ∈ rs, ψ u = ψ v → u = v) →
      discreteCTEVec source dest (some ((rs.map ψ).map (fun x => [x]))) p ch pt off b mm =
        discreteCTEVec source dest (some rs) p ch pt off b mm := by
    intro ψ hψ
    have h := C75_cte_reencode source dest rs m n o m n 1 hx hy hz hov id id (fun v => [ψ v]) (by simpa using hx)
      (by simpa using hy) (by rw [singles_map]; exact singles_shape _) (fun u _ v _ h => h) (fun u _ v _ h => h)
      (fun u hu v hv h => hψ u hu v hv (by simpa using h)) p ch pt off b hb mm
    rw [singles_map, List.map_id, List.map_id] at h
    exact h
  refine ⟨?_, ?_, ?_⟩
  · cases mm with
    | false =>
      simp only [discreteCTEOf, condRows_codes, bind, Except.bind]
      exact key _ (vec_code_inj rs)
    | true => simp [discreteCTEOf, condSeriesRows, bind, Except.bind]
  · simp [discreteCTEOf, condSeriesRows, bind, Except.bind]
  · simp only [discreteCTEOf, condSeriesRows, bind, Except.bind]
    exact key χ hχ

example := C75_condition_array_list_labels [[0, 1], [1, 1], [0, 0], [0, 1], [1, 0]] [[2], [3], [2], [3], [3]]
  [[0, 1], [1, 1], [1, 0], [0, 0], [1, 1]] 2 1 2 ⟨by decide, by decide⟩ ⟨by decide, by decide⟩ ⟨by decide, by decide⟩ (by decide)
  (fun v => 2 * v.getD 0 0 + v.getD 1 0) (by decide) (teParams 1 1 1) (.int 1) none none (.num 2) (by norm_num [Base.Valid]) true

/-- **C75** Plug-in estimator: a tuple of aligned series as a condition means the vector series of its components. -/
theorem C75_condition_tuple (source dest cols : List (List Int)) (m n N : Nat) (hx : VecShape m source) (hy : VecShape n dest)
    (hne : cols ≠ []) (hl : ∀ c ∈ cols, c.length = N) (hov : dest.length < 2 ^ 32) (p : TEParams) (ch : PyArg)
    (pt off : Option PyArg) (b : Base) (hb : b.Valid) :
    discreteCTEOf source dest (.tup cols) p ch pt off b =
      discreteCTEVec source dest (some (Spec.rows N cols)) p ch pt off b := by
  have h := (C75_condition_array_list_labels source dest (Spec.rows N cols) m n cols.length hx hy (specRows_shape N hne) hov
    (Int.ofNat ∘ npPos (Spec.rows N cols)) (vec_code_inj _) p ch pt off b hb false).1
  rw [← h]
  unfold discreteCTEOf
  rw [condRows_codes]
  simp only [condSeriesRows, if_true, reduceJointSpace, columnStack_ok hne hl, Except.map]
  rw [← rowCodes_eq]; rfl

/-- **C75** In a tuple of conditions neither the order of the series nor repetitions matter (plug-in). -/
theorem C75_condition_tuple_set (source dest cols cols' : List (List Int)) (m n N : Nat) (hx : VecShape m source)
    (hy : VecShape n dest) (hne : cols ≠ []) (hl : ∀ c ∈ cols, c.length = N) (hset : ∀ c, c ∈ cols ↔ c ∈ cols')
    (hov : dest.length < 2 ^ 32) (p : TEParams) (ch : PyArg) (pt off : Option PyArg) (b : Base) (hb : b.Valid) :
    discreteCTEOf source dest (.tup cols) p ch pt off b = discreteCTEOf source dest (.tup cols') p ch pt off b := by
  have hne' : cols' ≠ [] := by
    obtain ⟨c, hc⟩ := List.exists_mem_of_ne_nil _ hne
    exact List.ne_nil_of_mem ((hset c).1 hc)
  have hl' : ∀ c ∈ cols', c.length = N := fun c hc => hl c ((hset c).2 hc)
  rw [C75_condition_tuple source dest cols m n N hx hy hne hl hov p ch pt off b hb,
    C75_condition_tuple source dest cols' m n N hx hy hne' hl' hov p ch pt off b hb]
  -- equal rows of one tuple are equal rows of the other
  have hrow : ∀ t u, Spec.row cols t = Spec.row cols u ↔ Spec.row cols' t = Spec.row cols' u := by
    intro t u
    have e : ∀ cs : List (List Int), Spec.row cs t = Spec.row cs u ↔ ∀ c ∈ cs, c.getD t default = c.getD u default := by
      intro cs; unfold Spec.row; exact List.map_inj_left
    rw [e, e]
    exact ⟨fun h c hc => h c ((hset c).2 hc), fun h c hc => h c ((hset c).1 hc)⟩
  classical
  let V : List Int → List Int := fun v => if h : ∃ t < N, Spec.row cols t = v then Spec.row cols' h.choose else []
  have hV : ∀ t < N, V (Spec.row cols t) = Spec.row cols' t := by
    intro t ht
    have h : ∃ t' < N, Spec.row cols t' = Spec.row cols t := ⟨t, ht, rfl⟩
    simp only [V, dif_pos h]
    exact (hrow _ _).1 h.choose_spec.2
  have hmap : (Spec.rows N cols).map V = Spec.rows N cols' := by
    unfold Spec.rows
    rw [List.map_map]
    exact List.map_congr_left (fun t ht => hV t (List.mem_range.1 ht))
  have h := C75_cte_reencode source dest (Spec.rows N cols) m n cols.length m n cols'.length hx hy (specRows_shape N hne) hov
    id id V (by simpa using hx) (by simpa using hy) (by rw [hmap]; exact specRows_shape N hne') (fun u _ v _ h => h)
    (fun u _ v _ h => h)
    (fun u hu v hv h => by
      obtain ⟨t, ht, rfl⟩ := List.mem_map.1 hu
      obtain ⟨w, hw, rfl⟩ := List.mem_map.1 hv
      rw [hV t (List.mem_range.1 ht), hV w (List.mem_range.1 hw)] at h
      exact (hrow t w).2 h) p ch pt off b hb false
  rw [hmap, List.map_id, List.map_id] at h
  exact h.symm

/-- two condition series, given in the other order and one of them twice -/
example := C75_condition_tuple_set [[0, 1], [1, 1], [0, 0], [0, 1], [1, 0]] [[2], [3], [2], [3], [3]]
  [[0, 1, 1, 1, 0], [0, 0, 0, 1, 1]] [[0, 0, 0, 1, 1], [0, 1, 1, 1, 0], [0, 0, 0, 1, 1]] 2 1 5 ⟨by decide, by decide⟩
  ⟨by decide, by decide⟩ (by decide) (by decide) (by simp) (by decide) (teParams 1 1 1) (.int 1) none none (.num 2)
  (by norm_num [Base.Valid])

/-- **C75** A tuple whose series differ in length, or of no series, is a ValueError (both estimators). -/
theorem C75_condition_tuple_ragged (source dest cols : List (List Int)) (hr : cols = [] ∨ ∃ c ∈ cols, c.length ≠ (cols.headD []).length)
    (hd : dest ≠ []) (p : TEParams) (ch : PyArg) (pt off : Option PyArg) (b : Base) (mm : Bool) :
    discreteCTEOf source dest (.tup cols) p ch pt off b mm = .error .valueError := by
  cases mm with
  | false =>
    have : columnStack cols = .error .valueError := by
      cases cols with
      | nil => rfl
      | cons c cs =>
        rcases hr with h | ⟨c', hc', hne⟩
        · cases h
        · have : ¬ (cs.all (fun d => decide (d.length = c.length)) = true) := by
            intro h
            rw [List.all_eq_true] at h
            rcases List.mem_cons.1 hc' with rfl | hm
            · exact hne rfl
            · exact hne (of_decide_eq_true (h c' hm))
          simp only [columnStack, this]
          rfl
    simp only [discreteCTEOf, condSeriesRows, if_true, reduceJointSpace, this, Except.map, bind, Except.bind]
  | true =>
    simp only [discreteCTEOf, condSeriesRows, Bool.true_eq_false, if_false]
    split_ifs with h
    · rcases hr with rfl | ⟨c, hc, hne⟩
      · simp only [bind, Except.bind, discreteCTEVec]
        have : cteInit source dest (some []) pt off = .error .valueError := by
          refine (C73_cte_constructor source dest (some []) pt off).2 ?_
          rintro ⟨z, hz, h1, h2, -, -⟩
          obtain rfl : ([] : List (List Int)) = z := by simpa using hz
          simp only [List.length_nil] at h2
          rw [h2] at h1
          exact hd (List.length_eq_zero_iff.1 h1.symm)
        rw [this]
      · rw [List.all_eq_true] at h
        exact absurd (of_decide_eq_true (h c hc)) hne
    · rfl

example := C75_condition_tuple_ragged [[0, 1], [1, 1], [0, 0], [0, 1], [1, 0]] [[2], [3], [2], [3], [3]]
  [[0, 1, 1, 1, 0], [0, 0, 0, 1]] (.inr (by decide)) (by decide) (teParams 1 1 1) (.int 1) none none .e false

/-- **C75** (negative) The Miller–Madow estimator does not take a tuple of conditions as the plug-in estimator does: it reads the tuple as a
list of time points, so the call is a ValueError whenever the number of series is not the number of samples. -/
theorem C75_mm_tuple_rejected (source dest cols : List (List Int)) (hl : cols.length ≠ source.length) (p : TEParams) (ch : PyArg)
    (pt off : Option PyArg) (b : Base) : discreteCTEOf source dest (.tup cols) p ch pt off b true = .error .valueError := by
  simp only [discreteCTEOf, condSeriesRows, Bool.true_eq_false, if_false]
  split_ifs with h
  · simp only [bind, Except.bind, discreteCTEVec]
    have : cteInit source dest (some cols) pt off = .error .valueError := by
      refine (C73_cte_constructor source dest (some cols) pt off).2 ?_
      rintro ⟨z, hz, -, h2, -, -⟩
      obtain rfl : cols = z := by simpa using hz
      exact hl h2.symm
    rw [this]
  · rfl

/-- **C75** (negative) With as many series as samples the Miller–Madow estimator silently conditions on the transposed data: the result is that
of the nested list whose i-th vector is the i-th series. -/
theorem C75_mm_tuple_transposed (source dest cols : List (List Int)) (w : Nat) (hl : ∀ c ∈ cols, c.length = w) (p : TEParams)
    (ch : PyArg) (pt off : Option PyArg) (b : Base) :
    discreteCTEOf source dest (.tup cols) p ch pt off b true = discreteCTEVec source dest (some cols) p ch pt off b true := by
  have h : cols.all (fun c => decide (c.length = (cols.headD []).length)) = true := by
    rw [List.all_eq_true]
    intro c hc
    cases cols with
    | nil => cases hc
    | cons a as => exact decide_eq_true (by rw [hl c hc, List.headD_cons, hl a (by simp)])
  simp only [discreteCTEOf, condSeriesRows, Bool.true_eq_false, if_false, h, if_true, bind, Except.bind]

example := C75_mm_tuple_transposed [[0, 1], [1, 1], [0, 0], [0, 1], [1, 0]] [[2], [3], [2], [3], [3]]
  [[0, 1, 1, 1, 0], [0, 0, 0, 1, 1]] 5 (by decide) (teParams 1 1 1) (.int 1) none none .e

/-! ## Special conditions -/

/-- the value only depends on which embedded rows are equal -/
theorem vec_cte_te_of_determined (source dest cond : List (List Int)) (l k c s : Nat) (hs : 0 < s) (hl : 0 < l) (hk : 0 < k) (hc : 0 < c)
    (hcM : c ≤ max k l) (hm : max k l * s < source.length) (hlen : source.length = dest.length) (hlen2 : cond.length = dest.length)
    (hov : dest.length < 2 ^ 32) {m n o : Nat} (hx : VecShape m source) (hy : VecShape n dest) (hz : VecShape o cond)
    {b : Base} (hb : b.Valid) (mm : Bool)
    (hdet : ∀ u < numRows dest.length (max k l) s, ∀ v < numRows dest.length (max k l) s,
      histRow dest (max k l) s k u = histRow dest (max k l) s k v → histRow cond (max k l) s c u = histRow cond (max k l) s c v) :
    discreteCTEVec source dest (some cond) (teParams l k s) (.int c) (some (.int 0)) none b mm =
      discreteTEVec source dest (teParams l k s) (some (.int 0)) none b mm := by
  have hM : max (max k l) c = max k l := max_eq_left hcM
  have h1 := vec_cte_value source dest cond l k c s hs hl hk hc (by rw [hM]; exact hm) hlen hlen2 hov hx hy hz hb mm
  have h2 := vec_te_value source dest l k s hs hl hk hm hlen hov hx hy hb mm lawful_none
  simp only at h1 h2
  rw [h1, h2]
  simp only [hM]
  congr 2
  refine hSpec_combo_congr mm (List.range _) (fun u hu v hv => Iff.rfl) (fun u hu v hv => ?_) (fun u hu v hv => ?_)
  · rw [srcSel_none]
    rw [show (List.range (numRows dest.length (max k l) s)).getD u 0 = u from by
        simp [List.getD_eq_getElem?_getD, List.mem_range.1 hu],
      show (List.range (numRows dest.length (max k l) s)).getD v 0 = v from by
        simp [List.getD_eq_getElem?_getD, List.mem_range.1 hv]]
  · rw [Prod.mk.injEq]
    exact ⟨fun e => e.1, fun e => ⟨e, hdet u (List.mem_range.1 hu) v (List.mem_range.1 hv) e⟩⟩

/-- **C75** Conditioning on a constant series changes nothing (as long as its history is not the longest, which would shorten the embedding):
the conditional transfer entropy is the transfer entropy. -/
theorem C75_constant_condition (source dest cond : List (List Int)) (l k c s : Nat) (hs : 0 < s) (hl : 0 < l) (hk : 0 < k) (hc : 0 < c)
    (hcM : c ≤ max k l) (hm : max k l * s < source.length) (hlen : source.length = dest.length) (hlen2 : cond.length = dest.length)
    (hov : dest.length < 2 ^ 32) (m n o : Nat) (hx : VecShape m source) (hy : VecShape n dest) (hz : VecShape o cond)
    (hconst : ∀ u ∈ cond, ∀ v ∈ cond, u = v) (b : Base) (hb : b.Valid) (mm : Bool) :
    discreteCTEVec source dest (some cond) (teParams l k s) (.int c) (some (.int 0)) none b mm =
      discreteTEVec source dest (teParams l k s) (some (.int 0)) none b mm := by
  have hm' : max k l * s < dest.length := hlen ▸ hm
  refine vec_cte_te_of_determined source dest cond l k c s hs hl hk hc hcM hm hlen hlen2 hov hx hy hz hb mm (fun u hu v hv _ => ?_)
  have hmem : ∀ w < numRows dest.length (max k l) s, ∀ a ∈ histRow cond (max k l) s c w, a ∈ cond := fun w hw =>
    histRow_mem hs hcM (by rw [hlen2]; exact hm') (by rw [hlen2]; exact hw)
  refine List.ext_getElem (by simp [histRow]) (fun i h1 h2 => ?_)
  exact hconst _ (hmem u hu _ (List.getElem_mem h1)) _ (hmem v hv _ (List.getElem_mem h2))

example := C75_constant_condition [[0, 1], [1, 1], [0, 0], [0, 1], [1, 0]] [[2], [3], [2], [3], [3]] [[4], [4], [4], [4], [4]] 1 2 1 1
  (by decide) (by decide) (by decide) (by decide) (by decide) (by decide) rfl rfl (by decide) 2 1 1 ⟨by decide, by decide⟩
  ⟨by decide, by decide⟩ ⟨by decide, by decide⟩ (by decide) (.num 2) (by norm_num [Base.Valid]) true

/-- the last entries of a longer history are the shorter history -/
theorem histRow_suffix {α : Type} [Inhabited α] (xs : List α) (M s : Nat) {a b : Nat} (hab : a ≤ b) (hb : b ≤ M) {u v : Nat}
    (h : histRow xs M s b u = histRow xs M s b v) : histRow xs M s a u = histRow xs M s a v := by
  unfold histRow at h ⊢
  refine List.map_congr_left (fun j hj => ?_)
  have hj := List.mem_range.1 hj
  have := List.map_inj_left.1 h (b - a + j) (List.mem_range.2 (by omega))
  rwa [show M + u - b + (b - a + j) = M + u - a + j from by omega,
    show M + v - b + (b - a + j) = M + v - a + j from by omega] at this

/-- **C75** Conditioning on the destination's own past, not further back than the destination history, changes nothing. -/
theorem C75_condition_on_destination (source dest : List (List Int)) (l k c s : Nat) (hs : 0 < s) (hl : 0 < l) (hk : 0 < k) (hc : 0 < c)
    (hck : c ≤ k) (hm : max k l * s < source.length) (hlen : source.length = dest.length) (hov : dest.length < 2 ^ 32) (m n : Nat)
    (hx : VecShape m source) (hy : VecShape n dest) (b : Base) (hb : b.Valid) (mm : Bool) :
    discreteCTEVec source dest (some dest) (teParams l k s) (.int c) (some (.int 0)) none b mm =
      discreteTEVec source dest (teParams l k s) (some (.int 0)) none b mm :=
  vec_cte_te_of_determined source dest dest l k c s hs hl hk hc (le_trans hck (le_max_left _ _)) hm hlen rfl hov hx hy hy hb mm
    (fun _ _ _ _ h => histRow_suffix dest _ s hck (le_max_left _ _) h)

example := C75_condition_on_destination [[0, 1], [1, 1], [0, 0], [0, 1], [1, 0]] [[2], [3], [2], [3], [3]] 1 2 1 1
  (by decide) (by decide) (by decide) (by decide) (by decide) (by decide) rfl (by decide) 2 1 ⟨by decide, by decide⟩
  ⟨by decide, by decide⟩ (.num 2) (by norm_num [Base.Valid]) true

/-- value zero when the source history is a function of the histories conditioned on -/
theorem vec_cte_zero_of_determined (source dest cond : List (List Int)) (l k c s : Nat) (hs : 0 < s) (hl : 0 < l) (hk : 0 < k) (hc : 0 < c)
    (hm : max (max k l) c * s < source.length) (hlen : source.length = dest.length) (hlen2 : cond.length = dest.length)
    (hov : dest.length < 2 ^ 32) {m n o : Nat} (hx : VecShape m source) (hy : VecShape n dest) (hz : VecShape o cond)
    {b : Base} (hb : b.Valid) (mm : Bool)
    (hdet : ∀ u < numRows dest.length (max (max k l) c) s, ∀ v < numRows dest.length (max (max k l) c) s,
      histRow cond (max (max k l) c) s c u = histRow cond (max (max k l) c) s c v →
        histRow source (max (max k l) c) s l u = histRow source (max (max k l) c) s l v) :
    discreteCTEVec source dest (some cond) (teParams l k s) (.int c) (some (.int 0)) none b mm = .ok 0 := by
  have h := vec_cte_value source dest cond l k c s hs hl hk hc hm hlen hlen2 hov hx hy hz hb mm
  simp only at h
  rw [h, hSpec_map_congr mm (List.range _) (fun i => (histRow source (max (max k l) c) s l i,
        (histRow dest (max (max k l) c) s k i, histRow cond (max (max k l) c) s c i)))
      (fun i => (histRow dest (max (max k l) c) s k i, histRow cond (max (max k l) c) s c i))
      (fun u hu v hv => by
        simp only [Prod.mk.injEq]
        exact ⟨fun e => e.2, fun e => ⟨hdet u (List.mem_range.1 hu) v (List.mem_range.1 hv) e.2, e⟩⟩),
    hSpec_map_congr mm (List.range _) (fun i => ([dest.getD ((max (max k l) c + i) * s) default],
        histRow source (max (max k l) c) s l i,
        (histRow dest (max (max k l) c) s k i, histRow cond (max (max k l) c) s c i)))
      (fun i => ([dest.getD ((max (max k l) c + i) * s) default],
        (histRow dest (max (max k l) c) s k i, histRow cond (max (max k l) c) s c i)))
      (fun u hu v hv => by
        simp only [Prod.mk.injEq]
        exact ⟨fun e => ⟨e.1, e.2.2⟩, fun e => ⟨e.1, hdet u (List.mem_range.1 hu) v (List.mem_range.1 hv) e.2.2, e.2⟩⟩)]
  simp

/-- **C75** Nothing is transferred beyond the condition: conditioning on the source's own past, at least as long as the source history, gives
zero (plain and Miller–Madow). -/
theorem C75_condition_on_source_zero (source dest : List (List Int)) (l k c s : Nat) (hs : 0 < s) (hl : 0 < l) (hk : 0 < k)
    (hlc : l ≤ c) (hm : max (max k l) c * s < source.length) (hlen : source.length = dest.length)
    (hov : dest.length < 2 ^ 32) (m n : Nat) (hx : VecShape m source) (hy : VecShape n dest) (b : Base) (hb : b.Valid) (mm : Bool) :
    discreteCTEVec source dest (some source) (teParams l k s) (.int c) (some (.int 0)) none b mm = .ok 0 :=
  vec_cte_zero_of_determined source dest source l k c s hs hl hk (by omega) hm hlen hlen hov hx hy hx hb mm
    (fun _ _ _ _ h => histRow_suffix source _ s hlc (le_max_right _ _) h)

example := C75_condition_on_source_zero [[0, 1], [1, 1], [0, 0], [0, 1], [1, 0]] [[2], [3], [2], [3], [3]] 1 2 1 1
  (by decide) (by decide) (by decide) (by decide) (by decide) rfl (by decide) 2 1 ⟨by decide, by decide⟩
  ⟨by decide, by decide⟩ (.num 2) (by norm_num [Base.Valid]) true

/-- **C75** A constant source transfers nothing, whatever the condition. -/
theorem C75_constant_source_zero (source dest cond : List (List Int)) (l k c s : Nat) (hs : 0 < s) (hl : 0 < l) (hk : 0 < k) (hc : 0 < c)
    (hm : max (max k l) c * s < source.length) (hlen : source.length = dest.length) (hlen2 : cond.length = dest.length)
    (hov : dest.length < 2 ^ 32) (m n o : Nat) (hx : VecShape m source) (hy : VecShape n dest) (hz : VecShape o cond)
    (hconst : ∀ u ∈ source, ∀ v ∈ source, u = v) (b : Base) (hb : b.Valid) (mm : Bool) :
    discreteCTEVec source dest (some cond) (teParams l k s) (.int c) (some (.int 0)) none b mm = .ok 0 := by
  refine vec_cte_zero_of_determined source dest cond l k c s hs hl hk hc hm hlen hlen2 hov hx hy hz hb mm (fun u hu v hv _ => ?_)
  have hmem : ∀ w < numRows dest.length (max (max k l) c) s, ∀ a ∈ histRow source (max (max k l) c) s l w, a ∈ source := fun w hw =>
    histRow_mem hs (le_trans (le_max_right _ _) (le_max_left _ _)) hm (by rw [hlen]; exact hw)
  refine List.ext_getElem (by simp [histRow]) (fun i h1 h2 => ?_)
  exact hconst _ (hmem u hu _ (List.getElem_mem h1)) _ (hmem v hv _ (List.getElem_mem h2))

example := C75_constant_source_zero [[0, 1], [0, 1], [0, 1], [0, 1], [0, 1]] [[2], [3], [2], [3], [3]] [[0], [1], [1], [0], [1]] 1 2 1 1
  (by decide) (by decide) (by decide) (by decide) (by decide) rfl rfl (by decide) 2 1 1 ⟨by decide, by decide⟩
  ⟨by decide, by decide⟩ ⟨by decide, by decide⟩ (by decide) (.num 2) (by norm_num [Base.Valid]) true

/-! ## One-dimensional series and ordinal patterns -/

/-- **C75** Scalar series are the vectors of one component: their local values are those of the vector estimator. -/
theorem C75_local_scalar (source dest : List Int) (cond : Option (List Int)) (p : TEParams) (c : PyArg)
    (pt o : Option PyArg) (b : Base) (mm : Bool) :
    discreteCTEVecLocal (source.map (fun x => [x])) (dest.map (fun x => [x])) (cond.map (List.map (fun x => [x]))) p c pt o b mm =
      discreteCTELocal source dest cond p c pt o b mm := by
  unfold discreteCTEVecLocal discreteCTELocal
  simp only [cteInit_map]
  cases cteInit source dest cond pt o with
  | error e => rfl
  | ok d => simp only [Except.map, bind, Except.bind, cteObservationsVec_single]

/-- **C75** One local value per row of the embedding, averaging to the global value, for scalar series (plain and Miller–Madow). -/
theorem C75_scalar_local_mean (source dest cond : List Int) (l k c s : Nat) (hs : 0 < s) (hl : 0 < l) (hk : 0 < k) (hc : 0 < c)
    (hm : max (max k l) c * s < source.length) (hlen : source.length = dest.length) (hlen2 : cond.length = dest.length)
    (hov : dest.length < 2 ^ 32) (b : Base) (hb : b.Valid) (mm : Bool) :
    ∃ g ls, discreteCTE source dest (some cond) (teParams l k s) (.int c) (some (.int 0)) none b mm = .ok g ∧
      discreteCTELocal source dest (some cond) (teParams l k s) (.int c) (some (.int 0)) none b mm = .ok ls ∧
      ls.length = numRows dest.length (max (max k l) c) s ∧ Spec.mean ls = g := by
  obtain ⟨g, ls, h1, h2, h3, h4⟩ := C75_local_mean (source.map (fun x => [x])) (dest.map (fun x => [x])) (cond.map (fun x => [x]))
    l k c s hs hl hk hc (by simpa using hm) (by simpa using hlen) (by simpa using hlen2) (by simpa using hov) b hb mm
  refine ⟨g, ls, ?_, ?_, by simpa using h3, h4⟩
  · rw [← C72_scalar_discrete_cond]; exact h1
  · rw [← C75_local_scalar]; exact h2

example := C75_scalar_local_mean [0, 1, 1, 0, 1] [2, 3, 2, 3, 3] [0, 1, 1, 0, 1] 1 2 1 1
  (by decide) (by decide) (by decide) (by decide) (by decide) rfl rfl (by decide) (.num 2) (by norm_num [Base.Valid]) true

section
variable {α : Type} [LinearOrder α] [Inhabited α]

/-- **C75** Ordinal conditional transfer entropy: one local value per embedded row, averaging to the global value. -/
theorem C75_ordinal_local_mean (q : Argsort α) (x y z : List α) (hxy : x.length = y.length) (hzy : z.length = y.length)
    (d s l k c : Nat) (hd : 1 ≤ d) (hd' : d ≤ 20) (hs : 1 ≤ s) (hl : 0 < l) (hk : 0 < k) (hc : 0 < c)
    (hn : (d - 1) * s + max (max k l) c * s < x.length) (hov : x.length < 2 ^ 32) (stable : Bool) (b : Base) (hb : b.Valid) :
    ∃ t ls, ordCTE q x y (some z) (ordTEParams d l k s stable c) (some (.int 0)) none b = .ok t ∧
      ordCTELocal q x y (some z) (ordTEParams d l k s stable c) (some (.int 0)) none b = .ok ls ∧
      ls.length = numRows (x.length - (d - 1) * s) (max (max k l) c) s ∧ Spec.mean ls = t := by
  set N := x.length - (d - 1) * s with hN
  have hm : max (max k l) c * s < N := by omega
  obtain ⟨g, ls, h1, h2, h3, h4⟩ := C75_scalar_local_mean ((List.range N).map (ordCode q stable x d s))
    ((List.range N).map (ordCode q stable y d s)) ((List.range N).map (ordCode q stable z d s)) l k c s hs hl hk hc
    (by rw [List.length_map, List.length_range]; exact hm) (by simp) (by simp) (by simp; omega) b hb false
  simp only [List.length_map, List.length_range] at h3
  refine ⟨g, ls, ?_, ?_, h3, h4⟩
  · have e := ordCTE_eq_discrete q x y z hxy hzy l k c hd hd' hs (by omega) stable b
    simp only at e
    rw [e]
    exact h1
  · have hcc := ordPairChecks_ok (lo := 0) (n := x.length) (d := d) (s := s) (by omega) (by omega) hd
    have hy := symbolizeInt_win q y hd hd' hs (by rw [← hxy]; omega) stable
    have hz := symbolizeInt_win q z hd hd' hs (by rw [hzy, ← hxy]; omega) stable
    rw [hzy] at hz
    rw [← hxy] at hy hz
    rw [← h2]
    unfold discreteCTELocal
    rw [cteInit_zero (by simp) (by simp)]
    unfold ordCTELocal ordTEParams
    simp only [cteInit_zero hxy hzy, bind, Except.bind]
    simp only [teParams, hcc, symbolizeInt_win q x hd hd' hs (by omega) stable, hy, hz, ← hN]
    split
    · rfl
    · simp

example := C75_ordinal_local_mean (α := Int) stableSort [0, 3, 1, 2, 5, 4] [2, 3, 1, 5, 0, 1] [9, 3, 4, 0, 1, 2] rfl rfl 2 1 1 2 1
  (by decide) (by decide) (by decide) (by decide) (by decide) (by decide) (by decide) (by decide) false (.num 2) (by norm_num [Base.Valid])

/-- **C75** With embedding dimension 1 the ordinal conditional transfer entropy is 0. -/
theorem C75_ordinal_dim_one_zero (q : Argsort α) (x y z : List α) (hxy : x.length = y.length) (hzy : z.length = y.length)
    (s l k c : Nat) (hs : 1 ≤ s) (hl : 0 < l) (hk : 0 < k) (hc : 0 < c)
    (hn : max (max k l) c * s < x.length) (hov : x.length < 2 ^ 32) (stable : Bool) (b : Base) (hb : b.Valid) :
    ordCTE q x y (some z) (ordTEParams 1 l k s stable c) (some (.int 0)) none b = .ok 0 := by
  have e := ordCTE_eq_discrete q x y z hxy hzy l k c (le_refl 1) (by omega) hs (by omega) stable b
  simp only at e
  rw [e, ← C72_scalar_discrete_cond, Option.map_some]
  refine C75_constant_source_zero _ _ _ l k c s hs hl hk hc (by simpa using hn) (by simp) (by simp) (by simpa using hov) 1 1 1
    (singles_shape _) (singles_shape _) (singles_shape _) ?_ b hb false
  have hone : ∀ w : List α, w.length = 1 → sortFun q stable w = [0] := by
    intro w hw
    have := (sortFun_isArgsort q stable w).perm
    rw [hw] at this
    exact List.perm_singleton.1 this
  intro a ha c hc
  obtain ⟨a', ha', rfl⟩ := List.mem_map.1 ha
  obtain ⟨c', hc', rfl⟩ := List.mem_map.1 hc
  obtain ⟨i, hi, rfl⟩ := List.mem_map.1 ha'
  obtain ⟨j, hj, rfl⟩ := List.mem_map.1 hc'
  unfold ordCode
  rw [hone _ (by simp [win]), hone _ (by simp [win])]

example := C75_ordinal_dim_one_zero (α := Int) stableSort [0, 3, 1, 2, 5, 4] [2, 3, 1, 5, 0, 1] [9, 3, 4, 0, 1, 2] rfl rfl 1 1 2 1
  (by decide) (by decide) (by decide) (by decide) (by decide) (by decide) false (.num 2) (by norm_num [Base.Valid])

/-- **C75** Strictly increasing maps of the three series change nothing for the ordinal estimator, for all history lengths (with
ties: under stable sorting). -/
theorem C75_ordinal_increasing_maps {β : Type} [LinearOrder β] [Inhabited β] (q : Argsort α)
    (q' : Argsort β) (x y z : List α) (f g h : α → β) (hf : StrictMono f) (hg : StrictMono g) (hh : StrictMono h) (d s : Nat)
    (l k c : PyArg) (stable : Bool) (htx : stable = true ∨ TieFree x d s) (hty : stable = true ∨ TieFree y d s)
    (htz : stable = true ∨ TieFree z d s) (hxy : x.length = y.length) (hzy : z.length = y.length) (b : Base) :
    let p : OrdTEParams :=
      { dim := .int d, stable := stable, te := { srcHist := l, destHist := k, step := .int s }, condHist := c }
    ordCTE q' (x.map f) (y.map g) (some (z.map h)) p (some (.int 0)) none b =
      ordCTE q x y (some z) p (some (.int 0)) none b := by
  intro p
  have hx := (C27_invariant_under_increasing_maps q q' x f hf d s stable htx).2
  have hy := (C27_invariant_under_increasing_maps q q' y g hg d s stable hty).2
  have hz := (C27_invariant_under_increasing_maps q q' z h hh d s stable htz).2
  unfold ordCTE
  rw [cteInit_zero hxy hzy, cteInit_zero (show (x.map f).length = (y.map g).length by simpa using hxy)
    (show (z.map h).length = (y.map g).length by simpa using hzy)]
  simp only [bind, Except.bind, List.length_map]
  by_cases hc : ordPairChecks 0 x.length (.int d) (.int s) = .ok ((d : Int), (s : Int))
  · have e : ordPairChecks 0 x.length p.dim p.te.step = .ok ((d : Int), (s : Int)) := hc
    simp only [e]
    have es : p.stable = stable := rfl
    rw [es, hx, hy, hz]
  · have : ∃ e, ordPairChecks 0 x.length p.dim p.te.step = .error e := by
      show ∃ e, ordPairChecks 0 x.length (.int d) (.int s) = .error e
      unfold ordPairChecks at hc ⊢
      split_ifs at hc ⊢
      · exact ⟨_, rfl⟩
      · exact ⟨_, rfl⟩
      · exact ⟨_, rfl⟩
      · exact absurd rfl hc
    obtain ⟨e, he⟩ := this
    simp only [he]

example := C75_ordinal_increasing_maps (α := Int) (β := Int) stableSort stableSort [0, 3, 1, 2, 5, 4] [2, 3, 1, 5, 0, 1]
  [9, 3, 4, 0, 1, 2] (· + 1) (fun x => 2 * x) id (fun _ _ h => by simpa using h) (fun _ _ h => by simpa using h) strictMono_id 2 1
  (.int 1) (.int 1) (.int 1) false (.inr (by unfold TieFree delayVectors; decide)) (.inr (by unfold TieFree delayVectors; decide))
  (.inr (by unfold TieFree delayVectors; decide)) rfl rfl .e

end

/-! ## The hypotheses are met -/

/-- a three-component condition, twice the same series: plug-in takes the tuple, Miller–Madow rejects it -/
example (b : Base) (hb : b.Std) :
    (∃ t, discreteCTEOf [[0, 1], [1, 1], [0, 0], [1, 0], [1, 1]] [[1], [0], [1], [1], [0]]
      (.tup [[0, 0, 1, 1, 0], [5, 7, 7, 5, 5], [0, 0, 1, 1, 0]]) (teParams 1 2 1) (.int 1) (some (.int 0)) none b = .ok t ∧ 0 ≤ t) ∧
    discreteCTEOf [[0, 1], [1, 1], [0, 0], [1, 0], [1, 1]] [[1], [0], [1], [1], [0]]
      (.tup [[0, 0, 1, 1, 0], [5, 7, 7, 5, 5], [0, 0, 1, 1, 0]]) (teParams 1 2 1) (.int 1) (some (.int 0)) none b true =
        .error .valueError := by
  refine ⟨?_, C75_mm_tuple_rejected _ _ _ (by decide) _ _ _ _ b⟩
  rw [C75_condition_tuple _ _ _ 2 1 5 (by unfold VecShape; decide) (by unfold VecShape; decide) (by decide) (by decide) (by decide)
    _ _ _ _ b hb.valid]
  obtain ⟨t, h, -, h0⟩ := C75_cte_is_textbook [[0, 1], [1, 1], [0, 0], [1, 0], [1, 1]] [[1], [0], [1], [1], [0]]
    (Spec.rows 5 [[0, 0, 1, 1, 0], [5, 7, 7, 5, 5], [0, 0, 1, 1, 0]]) 1 2 1 1
    (by decide) (by decide) (by decide) (by decide) (by decide) (by decide) (by decide) (by decide) 2 1 3
    (by unfold VecShape; decide) (by unfold VecShape; decide) (by unfold VecShape; decide) b hb
  exact ⟨t, h, h0⟩

end Verif
