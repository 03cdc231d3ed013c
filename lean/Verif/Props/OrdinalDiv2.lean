import Verif.Props.OrdinalDiv

/-! # Property C68 : where the ordinal divergences go wrong -/

namespace Verif

open Spec

/-- two dictionaries without a common key are at the largest divergence -/
theorem jsdD_disjoint {κ : Type} [DecidableEq κ] (D E : Dst κ) (hD : (D.keys.map D.p).sum = 1) (hE : (E.keys.map E.p).sum = 1)
    (hdis : ∀ k ∈ D.keys, k ∉ E.keys) : jsdD [D, E] = Real.log 2 := by
  have key : ∀ F G : Dst κ, (F.keys.map F.p).sum = 1 → (∀ k ∈ F.keys, k ∉ G.keys) →
      (∀ a, mixD [D, E] a = (F.ext a + G.ext a) / 2) →
      ∑ a ∈ F.keys.toFinset, F.p a * Real.log (F.p a / mixD [D, E] a) = Real.log 2 := by
    intro F G hF hdis hm
    have : ∀ a ∈ F.keys.toFinset, F.p a * Real.log (F.p a / mixD [D, E] a) = F.p a * Real.log 2 := by
      intro a ha
      have ha := List.mem_toFinset.1 ha
      have hp := F.pos a ha
      rw [hm, Dst.ext, if_pos ha, Dst.ext, if_neg (hdis a ha), add_zero]
      congr 2
      field_simp
    rw [Finset.sum_congr rfl this, ← Finset.sum_mul, List.sum_toFinset _ F.nodup, hF, one_mul]
  have h1 := key D E hD hdis (fun a => by simp [mixD])
  have h2 := key E D hE (fun k hk hk' => hdis k hk' hk) (fun a => by simp [mixD, add_comm])
  simp only [jsdD, List.map_cons, List.map_nil, List.sum_cons, List.sum_nil, h1, h2, List.length_cons, List.length_nil]
  push_cast; ring

section
variable {α : Type} [LinearOrder α] [Inhabited α]

/-- the dictionary of a series with exactly one window -/
theorem ordJsd_single (q : Argsort α) (x y : List α) {d s : Nat} (hd : 2 ≤ d) (hs : 1 ≤ s) (hx : (d - 1) * s + 1 = x.length)
    (hy : (d - 1) * s + 1 < y.length) (stable : Bool) {b : Base} (hb : b.Valid)
    (hdis : ∀ w ∈ windows y d s, ordLabel q stable d s w ≠ q.run x) :
    ordJsd q [x, y] { dim := .int d, step := .int s, stable := stable } b = .ok (Real.log 2 / b.ln) := by
  obtain ⟨⟨r, E⟩, hr, he, hE⟩ := ordKey_dst q y hd hs hy stable hb
  let D : Dst OKey := ⟨[.perm (q.run x)], fun _ => 1, by simp, by simp⟩
  have e : ((d : Int) - 1) = ((d - 1 : Nat) : Int) := by omega
  have hsx : ordSimple q x d s stable b =
      .ok (0, some { probs := [1], dist := [(q.run x, 1)], patterns := [q.run x] }) := by
    unfold ordSimple
    rw [if_neg (by omega), if_pos (by rw [e]; exact_mod_cast hx)]
  unfold ordJsd
  simp only [List.mapM_cons, List.mapM_nil, ordInit_arr1 x (d := d) (s := s) (by omega) hs (by omega) stable,
    ordInit_arr1 y (d := d) (s := s) (by omega) hs (by omega) stable, bind, Except.bind, pure, Except.pure, List.zip_cons_cons,
    List.zip_nil_right, hsx, hr, List.map_cons, List.map_nil, ordKeys]
  have h0 : ((0 : ℝ), [(OKey.perm (q.run x), (1 : ℝ))]) = (D.ent / b.ln, D.dict) := by simp [D, Dst.ent, Dst.dict]
  simp only at he
  rw [h0]
  have := jsdCore_ok [D, E] (by simp) hb
  simp only [List.map_cons, List.map_nil, ← he] at this
  have h2 : jsdD [D, E] = Real.log 2 := by
    refine jsdD_disjoint D E (by simp [D]) ?_ ?_
    · rw [← List.sum_toFinset _ E.nodup]
      have hf : E.keys.toFinset = ((windows y d s).map (fun w => OKey.perm (ordLabel q stable d s w))).toFinset := by
        ext k; simp only [List.mem_toFinset, hE.keys k]
      rw [hf, Finset.sum_congr rfl fun a ha => hE.val a (List.mem_toFinset.1 ha)]
      refine sum_freq ?_
      simpa using windows_ne_nil (x := y) (d := d) (s := s) (by omega)
    · intro k hk hk'
      rw [hE.keys] at hk'
      obtain ⟨w, hw, rfl⟩ := List.mem_map.1 hk'
      have : OKey.perm (ordLabel q stable d s w) = .perm (q.run x) := by simpa [D] using hk
      exact hdis w hw (by injection this)
  rw [h2] at this
  exact this

theorem ordLabel_length (q : Argsort α) (stable : Bool) {d s : Nat} {w : List α} (hw : w.length = d) :
    (ordLabel q stable d s w).length = d := by
  unfold ordLabel
  split_ifs with h2 h3
  · unfold lab2; split_ifs <;> simp [h2.1]
  · have h := boolToNum_key3 w
    rw [h3.1]
    revert h
    rcases key3 w with ⟨_ | _, _ | _, _ | _⟩ <;> intro h <;> simp only [boolToNum, Except.ok.injEq, reduceCtorEq] at h <;> rw [← h] <;> rfl
  · rw [(sortFun_isArgsort q stable w).length, hw]

/-- **C68** (finding) With a step above 1, a series with exactly one window is recorded under the sort order of
the whole series instead of its window, a key no other series has: its divergence from any longer series is
the maximum `log 2`, even if every window of the other series has the same pattern. -/
theorem C68_single_window_step (q : Argsort α) (x y : List α) (d s : Nat) (hd : 2 ≤ d) (hs : 2 ≤ s) (hx : (d - 1) * s + 1 = x.length)
    (hy : (d - 1) * s + 1 < y.length) (stable : Bool) (b : Base) (hb : b.Valid) :
    ordJsd q [x, y] { dim := .int d, step := .int s, stable := stable } b = .ok (Real.log 2 / b.ln) := by
  refine ordJsd_single q x y hd (by omega) hx hy stable hb fun w hw h => ?_
  have h1 := congrArg List.length h
  rw [ordLabel_length q stable (mem_windows_length hw), (q.correct x).length, ← hx] at h1
  have : (d - 1) * 2 ≤ (d - 1) * s := Nat.mul_le_mul_left _ hs
  omega

example := C68_single_window_step stableSort [3, 1, 2] [2, 7, 1, 5, 0, 3] 2 2 (by decide) (by decide) (by decide) (by decide) false (.num 2) (by norm_num [Base.Valid])

end

/-- non-vacuity of `C68_single_window_step`: the only pattern of both series is the increasing one -/
example : patterns [(1:Int), 2, 3] 2 2 = [[0, 1]] ∧ patterns [(1:Int), 2, 3, 4] 2 2 = [[0, 1], [0, 1]] ∧
    (2 - 1) * 2 + 1 = [(1:Int), 2, 3].length ∧ (2 - 1) * 2 + 1 < [(1:Int), 2, 3, 4].length := by decide

/-- **C68** (finding) In dimension 3 a series with exactly one window is recorded under the sort order of its
values, longer series under the ranks: the pattern of `1, 2, 0` occurs in `1, 3, 0, 4`, and still the
divergence is the maximum `log 2`. -/
theorem C68_single_window_dim3 (q : Argsort Int) (stable : Bool) (b : Base) (hb : b.Valid) :
    (∀ p ∈ patterns [(1:Int), 2, 0] 3 1, p ∈ patterns [(1:Int), 3, 0, 4] 3 1) ∧
    ordJsd q [[1, 2, 0], [1, 3, 0, 4]] { dim := .int 3, stable := stable } b = .ok (Real.log 2 / b.ln) := by
  refine ⟨by decide, ?_⟩
  refine ordJsd_single q [1, 2, 0] [1, 3, 0, 4] (d := 3) (s := 1) (by omega) (by omega) rfl (by decide) stable hb fun w hw h => ?_
  have hr : q.run [1, 2, 0] = [2, 0, 1] :=
    (q.correct [1, 2, 0]).unique (by decide) ⟨by decide, by decide⟩
  rw [hr] at h
  have hw' : w ∈ [[(1:Int), 3, 0], [3, 0, 4]] := by
    have e : windows [(1:Int), 3, 0, 4] 3 1 = [[1, 3, 0], [3, 0, 4]] := by decide
    rwa [e] at hw
  have hl : ordLabel q stable 3 1 w = lab3 w := by simp [ordLabel]
  rw [hl] at h
  revert h
  simp only [List.mem_cons, List.not_mem_nil, or_false] at hw'
  rcases hw' with rfl | rfl <;> decide

example := C68_single_window_dim3 stableSort false (.num 2) (by norm_num [Base.Valid])

/-- **C68** (finding) With ties the divergence of a series from itself can be negative: for `1, 1, 2` in
dimension 2 the entropy counts the tie as descending and the cross-entropy as ascending. -/
theorem C68_ties_negative (b : Base) (hb : b.Std) :
    ordKld stableSort [(1 : Int), 1, 2] [1, 1, 2] { dim := .int 2, stable := true } b = .ok (- (Real.log 2 / b.ln)) ∧
      - (Real.log 2 / b.ln) < 0 := by
  obtain ⟨_, h1, _⟩ := C28_ties_disagree b hb
  have hw : windows ([1, 1, 2] : List Int) 2 1 = [[1, 1], [1, 2]] := by decide
  have h2 := ordCross_codes (stableSort (α := Int)) [1, 1, 2] [1, 1, 2] (d := 2) (s := 1) (by omega) (by omega) (by omega)
    (by decide) (by decide) true hb.valid
  have hc : ordCodes (stableSort (α := Int)) [1, 1, 2] 2 1 = [0, 0] := by
    have e : ∀ w, sortFun (stableSort (α := Int)) false w = argsortStable w := fun w => rfl
    simp only [ordCodes, hw, List.map_cons, List.map_nil, e, stable_le 1 1 (le_refl _), stable_le 1 2 (by decide)]
    decide
  have h0 : crossEntropy [(0:Int), 0] [0, 0] = 0 := by
    rw [crossEntropy_eq]
    simp [freq, cnt]
  rw [hc, h0, zero_div] at h2
  constructor
  · unfold ordKld
    have h2' : ordEntropy stableSort [.arr1 [(1 : Int), 1, 2], .arr1 [1, 1, 2]] { dim := .int 2, stable := true } b = .ok 0 := h2
    simp only [h2', h1, bind, Except.bind, pure, Except.pure, zero_sub]
  · have := Real.log_pos (by norm_num : (1:ℝ) < 2)
    have := div_pos this hb.ln_pos
    linarith

/-- the hypotheses of the positive theorems are met: two tie-free series with more than one window and with all
patterns of the first in the second -/
example : TieFree [(1:Int), 3, 2, 4, 0] 3 1 ∧ TieFree [(1:Int), 3, 2, 4, 0, 5] 3 1 ∧
    (∀ p ∈ patterns [(1:Int), 3, 2, 4, 0] 3 1, p ∈ patterns [(1:Int), 3, 2, 4, 0, 5] 3 1) ∧
    (3 - 1) * 1 + 1 < [(1:Int), 3, 2, 4, 0].length := by
  refine ⟨?_, ?_, by decide, by decide⟩ <;> (unfold TieFree; decide)

end Verif
