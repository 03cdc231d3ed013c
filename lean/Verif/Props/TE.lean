import Verif.Lemmas.TE3

/-! # Properties C20–C23 : transfer-entropy embedding -/

namespace Verif

open Spec

theorem getElem?_map_range {β : Type} {R i : Nat} (f : Nat → β) (h : i < R) :
    ((List.range R).map f)[i]? = some (f i) := by
  simp [h]

/-- **C20** For every series length, history lengths and step that pass validation: the embedding has
`R > 0` rows, `R` being exactly the number of anchors `(m + i)·s` below the series length; row `i` has
the destination value at the anchor as its future, and histories at the times `(m + i − h + j)·s`, in
time order, all inside the series and strictly before the anchor. -/
theorem C20_embedding {α : Type} [Inhabited α] (source dest : List α) (l k s : Nat) (hs : 0 < s)
    (hl : 0 < l) (hk : 0 < k) (hm : max k l * s < source.length) (hlen : source.length = dest.length) :
    ∃ sl R, teObservations source dest (.int l) (.int k) (.int s) = .ok sl ∧
      sl.src.length = R ∧ sl.dest.length = R ∧ sl.fut.length = R ∧ 0 < R ∧
      (∀ i, i < R ↔ (max k l + i) * s < dest.length) ∧
      (∀ i, i < R →
        sl.fut[i]? = some [dest.getD ((max k l + i) * s) default] ∧
        sl.src[i]? = some ((List.range l).map (fun j => source.getD ((max k l + i - l + j) * s) default)) ∧
        sl.dest[i]? = some ((List.range k).map (fun j => dest.getD ((max k l + i - k + j) * s) default)) ∧
        (∀ j, j < l → (max k l + i - l + j) * s < (max k l + i) * s) ∧
        (∀ j, j < k → (max k l + i - k + j) * s < (max k l + i) * s)) := by
  have hm' : max k l * s < dest.length := hlen ▸ hm
  refine ⟨_, numRows dest.length (max k l) s, teObservations_ok source dest l k s hs hl hk hm hlen lawful_none,
    by simp [srcSel_none], by simp [histRows], by simp [futRows], numRows_pos hs hm',
    fun i => lt_numRows hs hm', fun i hi => ?_⟩
  refine ⟨?_, ?_, ?_, ?_, ?_⟩
  · exact getElem?_map_range _ hi
  · exact getElem?_map_range _ hi
  · exact getElem?_map_range _ hi
  · intro j hj; exact Nat.mul_lt_mul_of_pos_right (by omega) hs
  · intro j hj; exact Nat.mul_lt_mul_of_pos_right (by omega) hs

example := C20_embedding ([1, 0, 1, 1, 0] : List Int) [0, 1, 0, 1, 1] 2 1 2 (by decide) (by decide) (by decide) (by decide) rfl

/-- **C20** the same for the conditional embedding. -/
theorem C20_conditional_embedding {α : Type} [Inhabited α] (source dest cond : List α) (l k c s : Nat)
    (hs : 0 < s) (hl : 0 < l) (hk : 0 < k) (hc : 0 < c)
    (hm : max (max k l) c * s < source.length) (hlen : source.length = dest.length)
    (hlen2 : cond.length = dest.length) :
    ∃ sl z R, cteObservations source dest cond (.int l) (.int k) (.int c) (.int s) = .ok sl ∧
      sl.cond = some z ∧
      sl.src.length = R ∧ sl.dest.length = R ∧ sl.fut.length = R ∧ z.length = R ∧ 0 < R ∧
      (∀ i, i < R ↔ (max (max k l) c + i) * s < dest.length) ∧
      (∀ i, i < R →
        sl.fut[i]? = some [dest.getD ((max (max k l) c + i) * s) default] ∧
        sl.src[i]? = some ((List.range l).map
          (fun j => source.getD ((max (max k l) c + i - l + j) * s) default)) ∧
        sl.dest[i]? = some ((List.range k).map
          (fun j => dest.getD ((max (max k l) c + i - k + j) * s) default)) ∧
        z[i]? = some ((List.range c).map
          (fun j => cond.getD ((max (max k l) c + i - c + j) * s) default))) := by
  have hm' : max (max k l) c * s < dest.length := hlen ▸ hm
  refine ⟨_, _, numRows dest.length (max (max k l) c) s,
    cteObservations_ok source dest cond l k c s hs hl hk hc hm hlen hlen2 lawful_none, rfl,
    by simp [srcSel_none], by simp [histRows], by simp [futRows], by simp [histRows], numRows_pos hs hm',
    fun i => lt_numRows hs hm', fun i hi => ?_⟩
  refine ⟨?_, ?_, ?_, ?_⟩
  · exact getElem?_map_range _ hi
  · exact getElem?_map_range _ hi
  · exact getElem?_map_range _ hi
  · exact getElem?_map_range _ hi

example : ∃ (source dest : List Int) (l k s : Nat), 0 < s ∧ 0 < l ∧ 0 < k ∧
    max k l * s < source.length ∧ source.length = dest.length ∧ numRows dest.length (max k l) s = 2 :=
  ⟨[0, 1, 0, 1, 1, 0, 1], [1, 1, 0, 0, 1, 0, 1], 1, 2, 2, by decide, by decide, by decide, by decide,
    by decide, by decide⟩

/-- **C20** (violation of the documentation) the documented number of rows
`n − (max(l, k) − 1)·step` is never the number of rows returned; it is always larger. -/
theorem C20_documented_row_count_is_wrong {α : Type} [Inhabited α] (source dest : List α) (l k s : Nat)
    (hs : 0 < s) (hl : 0 < l) (hk : 0 < k) (hm : max k l * s < source.length)
    (hlen : source.length = dest.length) :
    ∃ sl, teObservations source dest (.int l) (.int k) (.int s) = .ok sl ∧
      sl.fut.length < dest.length - (max k l - 1) * s := by
  have hm' : max k l * s < dest.length := hlen ▸ hm
  refine ⟨_, teObservations_ok source dest l k s hs hl hk hm hlen lawful_none, ?_⟩
  have h1 : (max k l - 1) * s + s = max k l * s := by
    have : max k l = (max k l - 1) + 1 := by omega
    conv_rhs => rw [this]
    ring
  simp only [futRows, List.length_map, List.length_range]
  have h2 : numRows dest.length (max k l) s ≤ dest.length - max k l * s := by
    unfold numRows
    rw [Nat.div_le_iff_le_mul_add_pred hs]
    have := Nat.mul_le_mul_right (dest.length - max k l * s) hs
    omega
  omega

example := C20_documented_row_count_is_wrong ([1, 0, 1, 1, 0] : List Int) [0, 1, 0, 1, 1] 2 1 2 (by decide) (by decide) (by decide) (by decide) rfl

/-- parameters that pass validation -/
theorem posInt_iff (a : PyArg) : a.posInt = true ↔ ∃ n : Nat, a = .int n ∧ 0 < n := by
  cases a with
  | int n =>
    simp only [PyArg.posInt, decide_eq_true_eq, PyArg.int.injEq]
    exact ⟨fun h => ⟨n.toNat, by omega, by omega⟩, fun ⟨m, h1, h2⟩ => by omega⟩
  | num x => simp [PyArg.posInt]
  | other => simp [PyArg.posInt]

/-- the contract of the random generator (see `SrcRandom.Lawful`), without exclusivity of the flags -/
def SrcRandom.Contract (rnd : SrcRandom) : Prop :=
  (∀ f ∈ rnd.permute, ∀ R, (f R).Perm (List.range R)) ∧
  (∀ f ∈ rnd.resample, ∀ R, (f R).length = R ∧ ∀ i ∈ f R, i < R)

/-- **C21** For series of equal length, the embedding succeeds exactly when the history lengths and the
step are positive integers, the maximal delay is smaller than the series and not both permutation and
resampling are requested; a step that cannot be compared with a number (such as the documented
`None`) is a TypeError; everything else is a ValueError. -/
theorem C21_te_guard_exact {α : Type} [Inhabited α] (source dest : List α) (a b st : PyArg)
    (rnd : SrcRandom) (hr : rnd.Contract) (hlen : source.length = dest.length) :
    let valid := ∃ l k s : Nat, a = .int l ∧ b = .int k ∧ st = .int s ∧ 0 < l ∧ 0 < k ∧ 0 < s ∧
      max l k * s < source.length ∧ ¬ (rnd.permute.isSome ∧ rnd.resample.isSome)
    ((∃ sl, teObservations source dest a b st rnd = .ok sl) ↔ valid) ∧
    (teObservations source dest a b st rnd = .error .typeError ↔ st = .other) ∧
    (teObservations source dest a b st rnd = .error .valueError ↔ st ≠ .other ∧ ¬ valid) := by
  intro valid
  by_cases hst : st = .other
  · subst hst
    have hv : ¬ valid := by
      rintro ⟨l, k, s, _, _, h, _⟩; exact PyArg.noConfusion h
    have : teObservations source dest a b .other rnd = .error .typeError := rfl
    simp [this, hv]
  have hred : teObservations source dest a b st rnd =
      (if [a, b, st].all PyArg.posInt = false then .error .valueError
      else
        if (source.length : Int) ≤ max b.val a.val * st.val then .error .valueError
        else do
          let s ← srcDestSlices source dest a.val b.val st.val (max b.val a.val * st.val) rnd
          pure { src := s.2.2.1, dest := s.2.1, fut := s.1 }) := by
    cases st with
    | other => exact absurd rfl hst
    | int n => rfl
    | num x => rfl
  have key : (valid ∧ ∃ sl, teObservations source dest a b st rnd = .ok sl) ∨
      (¬ valid ∧ teObservations source dest a b st rnd = .error .valueError) := by
    by_cases hp : [a, b, st].all PyArg.posInt = false
    · refine Or.inr ⟨?_, by rw [hred, if_pos hp]⟩
      rintro ⟨l, k, s, rfl, rfl, rfl, h1, h2, h3, _⟩
      simp [PyArg.posInt, h1, h2, h3] at hp
    · have hp' := hp
      simp only [List.all_cons, List.all_nil, Bool.and_true, Bool.not_eq_false, Bool.and_eq_true] at hp
      obtain ⟨l, rfl, h1⟩ := (posInt_iff a).1 hp.1
      obtain ⟨k, rfl, h2⟩ := (posInt_iff b).1 hp.2.1
      obtain ⟨s, rfl, h3⟩ := (posInt_iff st).1 hp.2.2
      have hmd : max (PyArg.int (k : Int)).val (PyArg.int (l : Int)).val * (PyArg.int (s : Int)).val =
          ((max k l * s : ℕ) : Int) := by simp [PyArg.val]
      by_cases hd : (source.length : Int) ≤ max (PyArg.int (k : Int)).val (PyArg.int (l : Int)).val * (PyArg.int (s : Int)).val
      · refine Or.inr ⟨?_, by rw [hred, if_neg hp', if_pos hd]⟩
        rintro ⟨l', k', s', e1, e2, e3, _, _, _, h, _⟩
        simp only [PyArg.int.injEq, Int.natCast_inj] at e1 e2 e3
        subst e1 e2 e3
        rw [hmd, max_comm] at hd
        omega
      · have hd' : max k l * s < source.length := by rw [hmd] at hd; omega
        by_cases hb : rnd.permute.isSome ∧ rnd.resample.isSome
        · refine Or.inr ⟨?_, ?_⟩
          · rintro ⟨_, _, _, _, _, _, _, _, _, _, h⟩; exact h hb
          · rw [hred, if_neg hp', if_neg hd]
            simp only [srcDestSlices, if_pos hb, bind, Except.bind]
        · exact Or.inl ⟨⟨l, k, s, rfl, rfl, rfl, h1, h2, h3, by rwa [max_comm], hb⟩, _,
            teObservations_ok source dest l k s h3 h1 h2 hd' hlen ⟨hb, hr⟩⟩
  rcases key with ⟨hv, sl, h⟩ | ⟨hv, h⟩
  · refine ⟨⟨fun _ => hv, fun _ => ⟨sl, h⟩⟩, ?_, ?_⟩
    · rw [h]; simp [hst]
    · rw [h]; simp [hv]
  · refine ⟨⟨fun ⟨sl, e⟩ => by rw [h] at e; simp at e, fun e => absurd e hv⟩, ?_, ?_⟩
    · rw [h]; simp [hst]
    · rw [h]; simp [hv, hst]

example := C21_te_guard_exact ([1, 0, 1, 1, 0] : List Int) [0, 1, 0, 1, 1] (.int 2) (.int 1) (.int 3)
  { permute := some (fun R => (List.range R).reverse) } ⟨fun f hf R => by simp at hf; subst hf; exact List.reverse_perm _, by simp⟩ rfl

/-- **C21** the same for the conditional embedding, which has no comparison before the validation: every
rejection is a ValueError. -/
theorem C21_cte_guard_exact {α : Type} [Inhabited α] (source dest cond : List α) (a b d st : PyArg)
    (rnd : SrcRandom) (hr : rnd.Contract) (hlen : source.length = dest.length)
    (hlen2 : cond.length = dest.length) :
    let valid := ∃ l k c s : Nat, a = .int l ∧ b = .int k ∧ d = .int c ∧ st = .int s ∧ 0 < l ∧ 0 < k ∧
      0 < c ∧ 0 < s ∧ max (max l k) c * s < source.length ∧
      ¬ (rnd.permute.isSome ∧ rnd.resample.isSome)
    ((∃ sl, cteObservations source dest cond a b d st rnd = .ok sl) ↔ valid) ∧
    (cteObservations source dest cond a b d st rnd = .error .valueError ↔ ¬ valid) := by
  intro valid
  have key : (valid ∧ ∃ sl, cteObservations source dest cond a b d st rnd = .ok sl) ∨
      (¬ valid ∧ cteObservations source dest cond a b d st rnd = .error .valueError) := by
    by_cases hp : [a, b, d, st].all PyArg.posInt = false
    · refine Or.inr ⟨?_, by rw [cteObservations, if_pos hp]⟩
      rintro ⟨l, k, c, s, rfl, rfl, rfl, rfl, h1, h2, h3, h4, _⟩
      simp [PyArg.posInt, h1, h2, h3, h4] at hp
    · have hp' := hp
      simp only [List.all_cons, List.all_nil, Bool.and_true, Bool.not_eq_false, Bool.and_eq_true] at hp
      obtain ⟨l, rfl, h1⟩ := (posInt_iff a).1 hp.1
      obtain ⟨k, rfl, h2⟩ := (posInt_iff b).1 hp.2.1
      obtain ⟨c, rfl, h4⟩ := (posInt_iff d).1 hp.2.2.1
      obtain ⟨s, rfl, h3⟩ := (posInt_iff st).1 hp.2.2.2
      have hmd : max (max (PyArg.int (k : Int)).val (PyArg.int (l : Int)).val) (PyArg.int (c : Int)).val *
          (PyArg.int (s : Int)).val = ((max (max k l) c * s : ℕ) : Int) := by simp [PyArg.val]
      by_cases hd : (source.length : Int) ≤
          max (max (PyArg.int (k : Int)).val (PyArg.int (l : Int)).val) (PyArg.int (c : Int)).val *
            (PyArg.int (s : Int)).val
      · refine Or.inr ⟨?_, by rw [cteObservations, if_neg hp']; simp only [if_pos hd]⟩
        rintro ⟨l', k', c', s', e1, e2, e4, e3, _, _, _, _, h, _⟩
        simp only [PyArg.int.injEq, Int.natCast_inj] at e1 e2 e3 e4
        subst e1 e2 e3 e4
        rw [hmd, max_comm k l] at hd
        omega
      · have hd' : max (max k l) c * s < source.length := by rw [hmd] at hd; omega
        by_cases hb : rnd.permute.isSome ∧ rnd.resample.isSome
        · refine Or.inr ⟨?_, ?_⟩
          · rintro ⟨_, _, _, _, _, _, _, _, _, _, _, _, _, h⟩; exact h hb
          · rw [cteObservations, if_neg hp']
            simp only [if_neg hd, srcDestSlices, if_pos hb, bind, Except.bind]
        · exact Or.inl ⟨⟨l, k, c, s, rfl, rfl, rfl, rfl, h1, h2, h4, h3, by rwa [max_comm l k], hb⟩, _,
            cteObservations_ok source dest cond l k c s h3 h1 h2 h4 hd' hlen hlen2 ⟨hb, hr⟩⟩
  rcases key with ⟨hv, sl, h⟩ | ⟨hv, h⟩
  · exact ⟨⟨fun _ => hv, fun _ => ⟨sl, h⟩⟩, by rw [h]; simp [hv]⟩
  · exact ⟨⟨fun ⟨sl, e⟩ => by rw [h] at e; simp at e, fun e => absurd e hv⟩, by rw [h]; simp [hv]⟩

example : (⟨some (fun R => (List.range R).reverse), some (fun R => List.replicate R 0)⟩ : SrcRandom).Contract := by
  refine ⟨?_, ?_⟩
  · intro f hf R
    simp only [Option.mem_def, Option.some.injEq] at hf
    subst hf
    exact List.reverse_perm _
  · intro f hf R
    simp only [Option.mem_def, Option.some.injEq] at hf
    subst hf
    refine ⟨by simp, fun i hi => ?_⟩
    rw [List.mem_replicate] at hi
    omega

/-- **C22** With a permutation of the source, for every outcome of the generator: the source rows are a
permutation of the rows without it and the destination history and future are the same. -/
theorem C22_permute_source {α : Type} [Inhabited α] (source dest : List α) (l k s : Nat) (hs : 0 < s)
    (hl : 0 < l) (hk : 0 < k) (hm : max k l * s < source.length) (hlen : source.length = dest.length)
    (f : Nat → List Nat) (hf : ∀ R, (f R).Perm (List.range R)) :
    ∃ sl sl', teObservations source dest (.int l) (.int k) (.int s) = .ok sl ∧
      teObservations source dest (.int l) (.int k) (.int s) { permute := some f } = .ok sl' ∧
      sl'.src.Perm sl.src ∧ sl'.dest = sl.dest ∧ sl'.fut = sl.fut := by
  have hr : ({ permute := some f } : SrcRandom).Lawful :=
    ⟨by simp, by intro g hg R; simp only [Option.mem_def, Option.some.injEq] at hg; subst hg; exact hf R, by simp⟩
  refine ⟨_, _, teObservations_ok source dest l k s hs hl hk hm hlen lawful_none,
    teObservations_ok source dest l k s hs hl hk hm hlen hr, ?_, rfl, rfl⟩
  exact (hf _).map _

example := C22_permute_source ([1, 0, 1, 1, 0] : List Int) [0, 1, 0, 1, 1] 2 1 1 (by decide) (by decide) (by decide) (by decide) rfl
  (fun R => (List.range R).reverse) (fun _ => List.reverse_perm _)

/-- **C22** With resampling, for every outcome of the generator: as many source rows as before, each of
them one of the original rows; destination history and future are the same. -/
theorem C22_resample_source {α : Type} [Inhabited α] (source dest : List α) (l k s : Nat) (hs : 0 < s)
    (hl : 0 < l) (hk : 0 < k) (hm : max k l * s < source.length) (hlen : source.length = dest.length)
    (f : Nat → List Nat) (hf : ∀ R, (f R).length = R ∧ ∀ i ∈ f R, i < R) :
    ∃ sl sl', teObservations source dest (.int l) (.int k) (.int s) = .ok sl ∧
      teObservations source dest (.int l) (.int k) (.int s) { resample := some f } = .ok sl' ∧
      sl'.src.length = sl.src.length ∧ (∀ r ∈ sl'.src, r ∈ sl.src) ∧
      sl'.dest = sl.dest ∧ sl'.fut = sl.fut := by
  have hr : ({ resample := some f } : SrcRandom).Lawful :=
    ⟨by simp, by simp, by intro g hg R; simp only [Option.mem_def, Option.some.injEq] at hg; subst hg; exact hf R⟩
  refine ⟨_, _, teObservations_ok source dest l k s hs hl hk hm hlen lawful_none,
    teObservations_ok source dest l k s hs hl hk hm hlen hr, ?_, ?_, rfl, rfl⟩
  · simp only [List.length_map]
    rw [srcSel_length hr, srcSel_length lawful_none]
  · intro r hr'
    obtain ⟨i, hi, rfl⟩ := List.mem_map.1 hr'
    exact List.mem_map_of_mem (by rw [srcSel_none, List.mem_range]; exact srcSel_lt hr _ i hi)

example := C22_resample_source ([1, 0, 1, 1, 0] : List Int) [0, 1, 0, 1, 1] 2 1 1 (by decide) (by decide) (by decide) (by decide) rfl
  (fun R => List.replicate R 0) (fun R => ⟨by simp, fun i hi => by
    have := List.length_pos_of_mem hi
    rw [List.eq_of_mem_replicate hi]; simpa using this⟩)

/-- **C22** the same for the conditional embedding: the condition history is unchanged too. -/
theorem C22_conditional {α : Type} [Inhabited α] (source dest cond : List α) (l k c s : Nat)
    (hs : 0 < s) (hl : 0 < l) (hk : 0 < k) (hc : 0 < c)
    (hm : max (max k l) c * s < source.length) (hlen : source.length = dest.length)
    (hlen2 : cond.length = dest.length) (rnd : SrcRandom) (hr : rnd.Contract)
    (hb : ¬ (rnd.permute.isSome ∧ rnd.resample.isSome)) :
    ∃ sl sl', cteObservations source dest cond (.int l) (.int k) (.int c) (.int s) = .ok sl ∧
      cteObservations source dest cond (.int l) (.int k) (.int c) (.int s) rnd = .ok sl' ∧
      sl'.src.length = sl.src.length ∧ (∀ r ∈ sl'.src, r ∈ sl.src) ∧
      (rnd.permute.isSome → sl'.src.Perm sl.src) ∧
      sl'.dest = sl.dest ∧ sl'.fut = sl.fut ∧ sl'.cond = sl.cond := by
  have hr' : rnd.Lawful := ⟨hb, hr⟩
  refine ⟨_, _, cteObservations_ok source dest cond l k c s hs hl hk hc hm hlen hlen2 lawful_none,
    cteObservations_ok source dest cond l k c s hs hl hk hc hm hlen hlen2 hr', ?_, ?_, ?_, rfl, rfl, rfl⟩
  · simp only [List.length_map]
    rw [srcSel_length hr', srcSel_length lawful_none]
  · intro r hmem
    obtain ⟨i, hi, rfl⟩ := List.mem_map.1 hmem
    exact List.mem_map_of_mem (by rw [srcSel_none, List.mem_range]; exact srcSel_lt hr' _ i hi)
  · intro hp
    refine List.Perm.map _ ?_
    cases h : rnd.permute with
    | none => rw [h] at hp; simp at hp
    | some f =>
      rw [srcSel_none]
      simp only [srcSel, h]
      exact hr.1 f h _

example : ∀ R, ((fun R => (List.range R).reverse) R).Perm (List.range R) := fun _ => List.reverse_perm _

/-- **C23** The four spaces of one embedding have the same number of rows and row `i` of each is the
concatenation of row `i` of the parts it is made of. -/
theorem C23_joint_spaces (source dest : List Int) (l k s : Nat) (hs : 0 < s)
    (hl : 0 < l) (hk : 0 < k) (hm : max k l * s < source.length) (hlen : source.length = dest.length)
    (rnd : SrcRandom) (hr : rnd.Lawful) :
    ∃ sl sp, teObservations source dest (.int l) (.int k) (.int s) rnd = .ok sl ∧
      constructJointSpaces sl = .ok sp ∧
      sp.joint.length = sl.fut.length ∧ sp.marginal1.length = sl.fut.length ∧
      sp.marginal2.length = sl.fut.length ∧ sp.destPast = sl.dest ∧ sl.dest.length = sl.fut.length ∧
      sl.src.length = sl.fut.length ∧
      ∀ i, i < sl.fut.length → ∃ x y f, sl.src[i]? = some x ∧ sl.dest[i]? = some y ∧ sl.fut[i]? = some f ∧
        x.length = l ∧ y.length = k ∧ f.length = 1 ∧
        sp.joint[i]? = some (x ++ y ++ f) ∧ sp.marginal1[i]? = some (x ++ y) ∧
        sp.marginal2[i]? = some (y ++ f) := by
  set R := numRows dest.length (max k l) s with hR
  have hsl : (srcSel rnd R).map (histRow source (max k l) s l) =
      (List.range R).map (fun i => histRow source (max k l) s l ((srcSel rnd R).getD i 0)) := by
    conv_lhs => rw [← col_map_range (srcSel rnd R) R (srcSel_length hr R), List.map_map]
    rfl
  have h := teObservations_ok source dest l k s hs hl hk hm hlen hr
  rw [← hR, hsl, histRows, futRows, ← hR] at h
  refine ⟨_, _, h, teSpaces_ok R _ _ _, by simp, by simp, by simp, rfl, by simp, by simp, ?_⟩
  intro i hi
  have hi : i < R := by simpa using hi
  exact ⟨_, _, _, getElem?_map_range _ hi, getElem?_map_range _ hi, getElem?_map_range _ hi,
    by simp [histRow], by simp [histRow], by simp,
    getElem?_map_range _ hi, getElem?_map_range _ hi, getElem?_map_range _ hi⟩

example := C23_joint_spaces [1, 0, 1, 1, 0] [0, 1, 0, 1, 1] 2 1 1 (by decide) (by decide) (by decide) (by decide) rfl {} lawful_none

/-- **C23** with a condition, its history is appended to every space. -/
theorem C23_conditional_joint_spaces (source dest cond : List Int) (l k c s : Nat) (hs : 0 < s)
    (hl : 0 < l) (hk : 0 < k) (hc : 0 < c) (hm : max (max k l) c * s < source.length)
    (hlen : source.length = dest.length) (hlen2 : cond.length = dest.length)
    (rnd : SrcRandom) (hr : rnd.Lawful) :
    ∃ sl sp, cteObservations source dest cond (.int l) (.int k) (.int c) (.int s) rnd = .ok sl ∧
      constructJointSpaces sl = .ok sp ∧
      sp.joint.length = sl.fut.length ∧ sp.marginal1.length = sl.fut.length ∧
      sp.marginal2.length = sl.fut.length ∧ sp.destPast.length = sl.fut.length ∧
      ∀ i, i < sl.fut.length → ∃ cz x y f z, sl.cond = some cz ∧ sl.src[i]? = some x ∧
        sl.dest[i]? = some y ∧ sl.fut[i]? = some f ∧ cz[i]? = some z ∧
        x.length = l ∧ y.length = k ∧ f.length = 1 ∧ z.length = c ∧
        sp.joint[i]? = some (x ++ y ++ f ++ z) ∧ sp.marginal1[i]? = some (x ++ y ++ z) ∧
        sp.marginal2[i]? = some (y ++ f ++ z) ∧ sp.destPast[i]? = some (y ++ z) := by
  set R := numRows dest.length (max (max k l) c) s with hR
  have hsl : (srcSel rnd R).map (histRow source (max (max k l) c) s l) =
      (List.range R).map (fun i => histRow source (max (max k l) c) s l ((srcSel rnd R).getD i 0)) := by
    conv_lhs => rw [← col_map_range (srcSel rnd R) R (srcSel_length hr R), List.map_map]
    rfl
  have h := cteObservations_ok source dest cond l k c s hs hl hk hc hm hlen hlen2 hr
  rw [← hR, hsl, histRows, histRows, futRows, ← hR] at h
  refine ⟨_, _, h, cteSpaces_ok R _ _ _ _, by simp, by simp, by simp, by simp, ?_⟩
  intro i hi
  have hi : i < R := by simpa using hi
  exact ⟨_, _, _, _, _, rfl, getElem?_map_range _ hi, getElem?_map_range _ hi, getElem?_map_range _ hi,
    getElem?_map_range _ hi, by simp [histRow],
    by simp [histRow], by simp, by simp [histRow], getElem?_map_range _ hi, getElem?_map_range _ hi,
    getElem?_map_range _ hi, getElem?_map_range _ hi⟩

example := C23_conditional_joint_spaces [1, 0, 1, 1, 0] [0, 1, 0, 1, 1] [0, 0, 1, 1, 0] 2 1 3 1 (by decide) (by decide) (by decide) (by decide) (by decide) rfl rfl {} lawful_none

end Verif
