import Verif.Lemmas.Ordinal2
import Verif.Spec.Ordinal

/-! # Ordinal patterns: labels and ranks -/

namespace Verif

open Spec

section
variable {α β : Type} [LinearOrder α] [Inhabited α] [LinearOrder β] [Inhabited β]

theorem countP_eq_range (v : List α) (p : α → Bool) :
    v.countP p = (List.range v.length).countP (fun i => p (v.getD i default)) := by
  conv_lhs => rw [← map_getD_range v]
  rw [List.countP_map]; rfl

theorem rankPattern_getD (v : List α) {i : Nat} (hi : i < v.length) :
    (rankPattern v).getD i 0 = v.countP (fun c => decide (c < v.getD i default)) := by
  simp [rankPattern, List.getElem?_eq_getElem hi]

theorem countP_lt_countP {γ : Type} {l : List γ} {p q : γ → Bool} (h : ∀ x ∈ l, p x = true → q x = true)
    {a : γ} (ha : a ∈ l) (hp : p a = false) (hq : q a = true) : l.countP p < l.countP q := by
  obtain ⟨s, t, rfl⟩ := List.append_of_mem ha
  have h1 : s.countP p ≤ s.countP q := List.countP_mono_left fun x hx => h x (by simp [hx])
  have h2 : t.countP p ≤ t.countP q := List.countP_mono_left fun x hx => h x (by simp [hx])
  simp only [List.countP_append, List.countP_cons, hp, hq]
  simp
  omega

theorem rank_le_iff (v : List α) {i j : Nat} (hj : j < v.length) :
    v.countP (fun c => decide (c < v.getD i default)) ≤ v.countP (fun c => decide (c < v.getD j default)) ↔
      v.getD i default ≤ v.getD j default := by
  constructor
  · intro h
    by_contra hlt
    have hlt := not_le.1 hlt
    refine absurd h (not_le.2 (countP_lt_countP (a := v.getD j default) ?_ ?_ ?_ ?_))
    · intro x _ hx
      simp only [decide_eq_true_eq] at *
      exact hx.trans hlt
    · rw [getD_lt hj]; exact List.getElem_mem hj
    · simp
    · simpa using hlt
  · intro h
    refine List.countP_mono_left fun x _ hx => ?_
    simp only [decide_eq_true_eq] at *
    exact lt_of_lt_of_le hx h

/-- equal rank patterns mean equal comparisons -/
theorem rankPattern_eq_iff (v w : List α) : rankPattern v = rankPattern w ↔ SameOrder v w := by
  constructor
  · intro h
    have hl : v.length = w.length := by simpa [rankPattern] using congrArg List.length h
    refine ⟨hl, fun i hi j hj => ?_⟩
    have hi' : i < w.length := hl ▸ hi
    have hj' : j < w.length := hl ▸ hj
    rw [← rank_le_iff v hj, ← rank_le_iff w hj', ← rankPattern_getD v hi, ← rankPattern_getD v hj,
      ← rankPattern_getD w hi', ← rankPattern_getD w hj', h]
  · intro h
    refine List.ext_getElem (by simp [rankPattern, h.1]) fun i h1 h2 => ?_
    have hi : i < v.length := by simpa [rankPattern] using h1
    have hi' : i < w.length := h.1 ▸ hi
    have e1 : (rankPattern v)[i] = (rankPattern v).getD i 0 := by simp [List.getElem?_eq_getElem h1]
    have e2 : (rankPattern w)[i] = (rankPattern w).getD i 0 := by simp [List.getElem?_eq_getElem h2]
    rw [e1, e2, rankPattern_getD v hi, rankPattern_getD w hi', countP_eq_range, countP_eq_range w, ← h.1]
    refine List.countP_congr fun k hk => ?_
    have hk := List.mem_range.1 hk
    simp only [decide_eq_true_eq, ← not_le]
    rw [h.2 i hi k hk]

/-- the position of an entry in the sorting permutation of a tie-free window tells its comparisons -/
theorem IsArgsort.le_iff {w : List α} (hw : w.Nodup) {p : List Nat} (hp : IsArgsort w p) {i j : Nat}
    (hi : i < w.length) (hj : j < w.length) :
    w.getD i default ≤ w.getD j default ↔ p.idxOf i ≤ p.idxOf j := by
  have hnd : p.Nodup := hp.perm.nodup_iff.2 List.nodup_range
  have hip : i ∈ p := hp.perm.mem_iff.2 (List.mem_range.2 hi)
  have hjp : j ∈ p := hp.perm.mem_iff.2 (List.mem_range.2 hj)
  have hs := hp.sorted
  rw [List.pairwise_map, List.pairwise_iff_getElem] at hs
  have hii := List.idxOf_lt_length_iff.2 hip
  have hjj := List.idxOf_lt_length_iff.2 hjp
  have mono : ∀ a b, a ∈ p → b ∈ p → p.idxOf a < p.idxOf b → w.getD a default ≤ w.getD b default := by
    intro a b ha hb hab
    have := hs _ _ (List.idxOf_lt_length_iff.2 ha) (List.idxOf_lt_length_iff.2 hb) hab
    simpa using this
  constructor
  · intro h
    by_contra hc
    have hc := not_le.1 hc
    have h2 := mono j i hjp hip hc
    have : i = j := getD_inj hw hi hj (le_antisymm h h2)
    subst this; omega
  · intro h
    rcases lt_or_eq_of_le h with h | h
    · exact mono i j hip hjp h
    · have : i = j := (List.idxOf_inj hip).1 h
      rw [this]

theorem sortFun_eq_iff (q : Argsort α) (stable : Bool) {v w : List α} (hl : v.length = w.length)
    (hv : v.Nodup) (hw : w.Nodup) : sortFun q stable v = sortFun q stable w ↔ SameOrder v w := by
  constructor
  · intro h
    refine ⟨hl, fun i hi j hj => ?_⟩
    rw [(sortFun_isArgsort q stable v).le_iff hv hi hj,
      (sortFun_isArgsort q stable w).le_iff hw (hl ▸ hi) (hl ▸ hj), h]
  · intro h
    exact sortFun_sameOrder h q q stable (Or.inr hv)

theorem getD_lt_of_nodup {v : List α} (hv : v.Nodup) {i j : Nat} (hi : i < v.length) (hj : j < v.length)
    (hij : i ≠ j) : ¬ v.getD i default < v.getD j default ↔ v.getD j default < v.getD i default := by
  rw [not_lt]
  refine ⟨fun h => lt_of_le_of_ne h fun e => hij (getD_inj hv hi hj e.symm), le_of_lt⟩

theorem lab2_eq_iff {v w : List α} (hv : v.length = 2) (hw : w.length = 2) (hvn : v.Nodup) (hwn : w.Nodup) :
    lab2 v = lab2 w ↔ SameOrder v w := by
  have e : lab2 v = lab2 w ↔ (v.getD 0 default < v.getD 1 default ↔ w.getD 0 default < w.getD 1 default) := by
    unfold lab2; split_ifs with h1 h2 h2 <;> simp only [h1, h2] <;> decide
  rw [e]
  constructor
  · intro h
    refine ⟨by omega, fun i hi j hj => ?_⟩
    have h' := not_congr h
    rw [getD_lt_of_nodup hvn (by omega) (by omega) (by omega),
      getD_lt_of_nodup hwn (by omega) (by omega) (by omega)] at h'
    have hi : i = 0 ∨ i = 1 := by omega
    have hj : j = 0 ∨ j = 1 := by omega
    rcases hi with rfl | rfl <;> rcases hj with rfl | rfl
    · simp
    · rw [← not_lt, ← not_lt, h']
    · rw [← not_lt, ← not_lt, h]
    · simp
  · intro h
    rw [← not_le, ← not_le, h.2 1 (by omega) 0 (by omega)]

theorem lab3_eq_iff {v w : List α} (hv : v.length = 3) (hw : w.length = 3) (hvn : v.Nodup) (hwn : w.Nodup) :
    lab3 v = lab3 w ↔ SameOrder v w := by
  have e : lab3 v = lab3 w ↔ key3 v = key3 w := ⟨num3_inj v w, fun h => by unfold lab3; rw [h]⟩
  rw [e]
  simp only [key3, Prod.mk.injEq, decide_eq_decide]
  constructor
  · rintro ⟨h1, h2, h3⟩
    refine ⟨by omega, fun i hi j hj => ?_⟩
    have g : ∀ a b, a < 3 → b < 3 → a ≠ b → (v.getD a default < v.getD b default ↔ w.getD a default < w.getD b default) →
        (v.getD b default < v.getD a default ↔ w.getD b default < w.getD a default) := by
      intro a b ha hb hab h
      have h' := not_congr h
      rwa [getD_lt_of_nodup hvn (by omega) (by omega) hab,
        getD_lt_of_nodup hwn (by omega) (by omega) hab] at h'
    have g1 := g 0 1 (by omega) (by omega) (by omega) h1
    have g2 := g 1 2 (by omega) (by omega) (by omega) h2
    have g3 := g 0 2 (by omega) (by omega) (by omega) h3
    have hi : i = 0 ∨ i = 1 ∨ i = 2 := by omega
    have hj : j = 0 ∨ j = 1 ∨ j = 2 := by omega
    rcases hi with rfl | rfl | rfl <;> rcases hj with rfl | rfl | rfl <;>
      first
        | (rw [← not_lt, ← not_lt, h1])
        | (rw [← not_lt, ← not_lt, h2])
        | (rw [← not_lt, ← not_lt, h3])
        | (rw [← not_lt, ← not_lt, g1])
        | (rw [← not_lt, ← not_lt, g2])
        | (rw [← not_lt, ← not_lt, g3])
        | simp
  · intro h
    refine ⟨?_, ?_, ?_⟩
    · rw [← not_le, ← not_le, h.2 1 (by omega) 0 (by omega)]
    · rw [← not_le, ← not_le, h.2 2 (by omega) 1 (by omega)]
    · rw [← not_le, ← not_le, h.2 2 (by omega) 0 (by omega)]

/-- on tie-free windows the label identifies exactly the comparisons -/
theorem ordLabel_eq_iff (q : Argsort α) (stable : Bool) {d s : Nat} {v w : List α} (hv : v.length = d)
    (hw : w.length = d) (hvn : v.Nodup) (hwn : w.Nodup) :
    ordLabel q stable d s v = ordLabel q stable d s w ↔ SameOrder v w := by
  unfold ordLabel
  split_ifs with h2 h3
  · exact lab2_eq_iff (by omega) (by omega) hvn hwn
  · exact lab3_eq_iff (by omega) (by omega) hvn hwn
  · exact sortFun_eq_iff q stable (by omega) hvn hwn

/-! ## values of the estimator -/

omit [LinearOrder α] in
theorem ordInit_arr1 (x : List α) {d s : Nat} (hd : 1 ≤ d) (hs : 1 ≤ s) (hn : (d - 1) * s < x.length)
    (stable : Bool) :
    ordInit [.arr1 x] { dim := .int d, step := .int s, stable := stable } = .ok ([.arr1 x], (d : Int), (s : Int)) := by
  have h3 : ¬ (((d : Int) - 1) * s + 1 > (x.length : Int)) := by
    have : ((d : Int) - 1) = ((d - 1 : Nat) : Int) := by omega
    rw [this]
    intro h
    have : x.length < (d - 1) * s + 1 := by exact_mod_cast h
    omega
  have hs' : (1 : Int) ≤ s := by exact_mod_cast hs
  simp [ordInit, ordBaseInit, bind, Except.bind, pure, Except.pure, PyArg.intGe, PyArg.val, h3, hs']

theorem ordSimple_value (q : Argsort α) (x : List α) {d s : Nat} (hd : 1 ≤ d) (hs : 1 ≤ s)
    (hn : (d - 1) * s < x.length) (stable : Bool) {b : Base} (hb : b.Valid) :
    ∃ r, ordSimple q x d s stable b = .ok r ∧
      r.1 = entropy ((windows x d s).map (ordLabel q stable d s)) / b.ln := by
  unfold ordSimple
  have hw := windows_length x d s
  by_cases h1 : d = 1
  · subst h1
    refine ⟨_, by simp; rfl, ?_⟩
    have : entropy ((windows x 1 s).map (ordLabel q stable 1 s)) = 0 := by
      rw [entropy_eq_zero_iff]
      intro a ha c hc
      obtain ⟨v, hv, rfl⟩ := List.mem_map.1 ha
      obtain ⟨w, hw, rfl⟩ := List.mem_map.1 hc
      have lv := mem_windows_length hv
      have lw := mem_windows_length hw
      have nd : ∀ u : List α, u.length = 1 → u.Nodup := fun u hu => by
        obtain ⟨a, rfl⟩ := List.length_eq_one_iff.1 hu; simp
      rw [ordLabel_eq_iff q stable lv lw (nd _ lv) (nd _ lw)]
      refine ⟨by omega, fun i hi j hj => ?_⟩
      have : i = j := by omega
      subst this; simp
    simp [this]
  have hd1 : ¬ (d : Int) = 1 := by omega
  by_cases hsing : ((d : Int) - 1) * s + 1 = (x.length : Int)
  · refine ⟨_, by rw [if_neg hd1, if_pos hsing], ?_⟩
    have hlen : (windows x d s).length = 1 := by
      rw [hw]
      have e : ((d : Int) - 1) = ((d - 1 : Nat) : Int) := by omega
      rw [e] at hsing
      have : (d - 1) * s + 1 = x.length := by exact_mod_cast hsing
      omega
    obtain ⟨w, hw⟩ := List.length_eq_one_iff.1 hlen
    have : entropy ((windows x d s).map (ordLabel q stable d s)) = 0 := by
      rw [hw, entropy_eq_zero_iff]; simp
    simp [this]
  · obtain ⟨o, ho, hg, hp⟩ := ordProbabilities_good q x hd hs hn stable
    rw [if_neg hd1, if_neg hsing]
    refine ⟨(entropy o.patterns / b.ln, some o), ?_, by rw [← hp]⟩
    simp only [ho, bind, Except.bind, hg.value b hb, pure, Except.pure]

theorem ordEntropy_value (q : Argsort α) (x : List α) {d s : Nat} (hd : 1 ≤ d) (hs : 1 ≤ s)
    (hn : (d - 1) * s < x.length) (stable : Bool) {b : Base} (hb : b.Valid) :
    ordEntropy q [.arr1 x] { dim := .int d, step := .int s, stable := stable } b
      = .ok (entropy ((windows x d s).map (ordLabel q stable d s)) / b.ln) := by
  obtain ⟨r, hr, hv⟩ := ordSimple_value q x hd hs hn stable hb
  unfold ordEntropy
  simp only [ordInit_arr1 x hd hs hn stable, bind, Except.bind, hr, Except.map, hv]

end

end Verif
