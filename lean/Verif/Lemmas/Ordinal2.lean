import Verif.Lemmas.Ordinal

/-! # Lemmas on the ordinal entropy -/

namespace Verif

open Spec

theorem ordSum_ok {b : Base} (hb : b.Valid) (ps : List ℝ) (hp : ∀ p ∈ ps, 0 < p) :
    ordSum b ps = .ok (- (ps.map (fun p => p * (Real.log p / b.ln))).sum) := by
  unfold ordSum
  rw [mapM_ok (g := fun p => p * (Real.log p / b.ln))]
  · rfl
  · intro p h
    rw [logBase_ok hb (hp p h)]; rfl

/-- The result of a probability estimation is consistent with its own pattern sequence: the summed
value is the entropy of the patterns and the dictionary holds their frequencies. -/
structure OrdDist.Good (o : OrdDist) : Prop where
  value : ∀ b : Base, b.Valid → ordSum b o.probs = .ok (entropy o.patterns / b.ln)
  lookup : ∀ p ∈ o.patterns, dictGet o.dist p = .ok (freq o.patterns p)
  keysNodup : (o.dist.map Prod.fst).Nodup
  keysMem : ∀ k ∈ o.dist.map Prod.fst, k ∈ o.patterns

section counter
variable {κ : Type} [DecidableEq κ]

/-- distinct keys in order of first occurrence -/
def counterKeys (l : List κ) : List κ := l.reverse.dedup.reverse

theorem counterKeys_nodup (l : List κ) : (counterKeys l).Nodup :=
  List.nodup_reverse.2 (List.nodup_dedup _)

theorem mem_counterKeys {l : List κ} {k : κ} : k ∈ counterKeys l ↔ k ∈ l := by
  simp [counterKeys]

theorem pyCounter_eq (l : List κ) : pyCounter l = (counterKeys l).map (fun k => (k, cnt l k)) := rfl

theorem sum_counterKeys (l : List κ) (f : κ → ℝ) : ((counterKeys l).map f).sum = ∑ k ∈ l.toFinset, f k := by
  have : l.toFinset = (counterKeys l).toFinset := by ext k; simp [mem_counterKeys]
  rw [this, List.sum_toFinset _ (counterKeys_nodup l)]

theorem freq_map_inj {l : List κ} {f : κ → List Nat} (hf : ∀ u ∈ l, ∀ v ∈ l, f u = f v → u = v)
    {k : κ} (hk : k ∈ l) : freq (l.map f) (f k) = freq l k := by
  unfold freq
  rw [List.length_map, cnt_map]
  congr 2
  refine List.countP_congr fun u hu => ?_
  simp only [decide_eq_true_eq]
  exact ⟨hf u hu k hk, fun h => by rw [h]⟩

/-- counting keys and naming them afterwards -/
theorem counter_good (l : List κ) (f : κ → List Nat) (hf : ∀ u ∈ l, ∀ v ∈ l, f u = f v → u = v) :
    OrdDist.Good
      { probs := (pyCounter l).map (fun e => (e.2 : ℝ) / (l.length : ℝ))
        dist := ((pyCounter l).map (fun e => f e.1)).zip
          ((pyCounter l).map (fun e => (e.2 : ℝ) / (l.length : ℝ)))
        patterns := l.map f } where
  value b hb := by
    have hpos : ∀ p ∈ (counterKeys l).map (freq l), 0 < p := by
      intro p hp
      obtain ⟨k, hk, rfl⟩ := List.mem_map.1 hp
      exact freq_pos (mem_counterKeys.1 hk)
    have e : (pyCounter l).map (fun e => (e.2 : ℝ) / (l.length : ℝ)) = (counterKeys l).map (freq l) := by
      rw [pyCounter_eq, List.map_map]; rfl
    simp only [e]
    rw [ordSum_ok hb _ hpos, List.map_map, sum_counterKeys]
    congr 1
    have h1 : entropy (l.map f) = entropy l := by
      have := entropy_map_congr l f id (fun u hu v hv => ⟨fun h => hf u hu v hv h, fun h => by
        simp only [id] at h; rw [h]⟩)
      rwa [List.map_id] at this
    rw [h1, entropy, neg_div, Finset.sum_div]
    congr 1
    refine Finset.sum_congr rfl fun a _ => ?_
    simp only [Function.comp]; ring
  lookup p hp := by
    obtain ⟨k, hk, rfl⟩ := List.mem_map.1 hp
    simp only [pyCounter_eq, List.map_map]
    have e1 : (counterKeys l).map ((fun e : κ × Nat => f e.1) ∘ fun k => (k, cnt l k)) = (counterKeys l).map f := rfl
    have e2 : (counterKeys l).map ((fun e : κ × Nat => (e.2 : ℝ) / (l.length : ℝ)) ∘ fun k => (k, cnt l k))
        = ((counterKeys l).map f).map (freq (l.map f)) := by
      rw [List.map_map]
      refine List.map_congr_left fun k hk => ?_
      simp only [Function.comp]
      rw [freq_map_inj hf (mem_counterKeys.1 hk)]; rfl
    rw [e1, e2]
    exact dictGet_zip _ _ (List.mem_map.2 ⟨k, mem_counterKeys.2 hk, rfl⟩)
  keysNodup := by
    simp only [pyCounter_eq, List.map_map]
    rw [List.map_fst_zip (by simp)]
    exact (counterKeys_nodup l).map_on fun u hu v hv h => hf u (mem_counterKeys.1 hu) v (mem_counterKeys.1 hv) h
  keysMem k hk := by
    simp only [pyCounter_eq, List.map_map] at hk
    rw [List.map_fst_zip (by simp)] at hk
    obtain ⟨u, hu, rfl⟩ := List.mem_map.1 hk
    exact List.mem_map.2 ⟨u, mem_counterKeys.1 hu, rfl⟩

end counter

/-! ## dimension 2 -/

section
variable {α : Type} [LinearOrder α] [Inhabited α]

/-- label given by the dimension-2 path: ties count as descending -/
def lab2 (w : List α) : List Nat := if w.getD 0 default < w.getD 1 default then [0, 1] else [1, 0]

/-- comparison key of the dimension-3 path -/
def key3 (w : List α) : Bool × Bool × Bool :=
  (decide (w.getD 0 default < w.getD 1 default), decide (w.getD 1 default < w.getD 2 default),
    decide (w.getD 0 default < w.getD 2 default))

/-- total version of the dimension-3 naming table -/
def num3 (k : Bool × Bool × Bool) : List Nat :=
  match boolToNum k with
  | .ok l => l
  | .error _ => []

/-- label given by the dimension-3 path -/
def lab3 (w : List α) : List Nat := num3 (key3 w)

theorem boolToNum_key3 (w : List α) : boolToNum (key3 w) = .ok (lab3 w) := by
  unfold lab3 num3 key3
  by_cases h1 : w.getD 0 default < w.getD 1 default <;>
  by_cases h2 : w.getD 1 default < w.getD 2 default <;>
  by_cases h3 : w.getD 0 default < w.getD 2 default <;>
  first
    | exact absurd (h1.trans h2) h3
    | exact absurd h3 (not_lt.2 ((not_lt.1 h2).trans (not_lt.1 h1)))
    | simp only [h1, h2, h3, decide_true, decide_false, boolToNum]

theorem num3_inj (v w : List α) (h : num3 (key3 v) = num3 (key3 w)) : key3 v = key3 w := by
  have hv := boolToNum_key3 v
  have key : ∀ k l : Bool × Bool × Bool, num3 k ≠ [] → num3 k = num3 l → k = l := by
    decide
  have hne : num3 (key3 v) ≠ [] := by
    have hk : ∀ k : Bool × Bool × Bool, boolToNum k ≠ .ok [] := by
      rintro ⟨_ | _, _ | _, _ | _⟩ <;> simp [boolToNum]
    intro h0
    exact hk _ (hv.trans (by rw [lab3, h0]))
  exact key _ _ hne h

theorem take_pred_getElem? {β : Type} (x : List β) (k i : Nat) :
    (x.take (x.length - k))[i]? = if i < x.length - k then x[i]? else none := by
  simp [List.getElem?_take]

omit [LinearOrder α] [Inhabited α] in
theorem pySlice_neg (x : List α) (k : Nat) (hk : 0 < k) :
    pySlice x none (some (-(k : Int))) = x.take (x.length - k) := by
  have h2 : (-(k : Int)) < 0 := by omega
  simp only [pySlice, pyBound, h2, if_true, List.drop_zero]
  congr 1
  omega

omit [LinearOrder α] [Inhabited α] in
theorem pySlice_pos (x : List α) (k : Nat) : pySlice x (some (k : Int)) none = x.drop k := by
  have h2 : ¬ ((k : Int) < 0) := by omega
  simp only [pySlice, pyBound, h2, if_false, List.take_length, Int.toNat_natCast]
  rcases Nat.le_total k x.length with h | h
  · rw [min_eq_left h]
  · rw [min_eq_right h, List.drop_length, List.drop_eq_nil_of_le h]

omit [LinearOrder α] [Inhabited α] in
theorem pySlice_both (x : List α) (j k : Nat) (hk : 0 < k) :
    pySlice x (some (j : Int)) (some (-(k : Int))) = (x.take (x.length - k)).drop (min j x.length) := by
  have h1 : ¬ ((j : Int) < 0) := by omega
  have h2 : (-(k : Int)) < 0 := by omega
  simp only [pySlice, pyBound, h1, h2, if_true, if_false, Int.toNat_natCast]
  congr 2
  omega

theorem dim2_gt (x : List α) :
    List.zipWith (fun a b => decide (a < b)) (pySlice x none (some (-1))) (pySlice x (some 1) none)
      = (windows x 2 1).map (fun w => decide (w.getD 0 default < w.getD 1 default)) := by
  have e1 := pySlice_neg x 1 (by omega)
  have e2 := pySlice_pos x 1
  rw [Nat.cast_one] at e1 e2
  rw [e1, e2]
  refine List.ext_getElem (by simp [windows]) fun i h1 h2 => ?_
  have hi : i < x.length - 1 := by simpa [windows] using h2
  have hi0 : i < x.length := by omega
  have hi1 : i + 1 < x.length := by omega
  simp [windows, List.getElem?_eq_getElem hi0, List.getElem?_eq_getElem hi1,
    List.range_succ]

theorem dim3_keys (x : List α) : dim3Keys x = (windows x 3 1).map key3 := by
  have e1 := pySlice_neg x 2 (by omega)
  have e2 := pySlice_pos x 2
  have e3 := pySlice_both x 1 1 (by omega)
  rw [Nat.cast_one] at e3
  have c2 : ((2 : Nat) : Int) = 2 := rfl
  rw [c2] at e1 e2
  unfold dim3Keys
  simp only [e1, e2, e3]
  refine List.ext_getElem (by simp [windows]; omega) fun i h1 h2 => ?_
  have hi : i < x.length - 2 := by simpa [windows] using h2
  have hi0 : i < x.length := by omega
  have hi1 : i + 1 < x.length := by omega
  have hi2 : i + 2 < x.length := by omega
  have hm : min 1 x.length = 1 := by omega
  simp [windows, key3, List.getElem?_eq_getElem hi0, List.getElem?_eq_getElem hi1,
    List.getElem?_eq_getElem hi2, List.getElem_drop, List.range_succ, hm, Nat.add_comm]

/-- the dimension-2 path: probabilities, dictionary and labels are consistent -/
theorem ordDim2_good (x : List α) (hx : 2 ≤ x.length) :
    (ordDim2 x).Good ∧ (ordDim2 x).patterns = (windows x 2 1).map lab2 := by
  have hw : (windows x 2 1).length = x.length - 1 := by rw [windows_length]
  have hpat : (ordDim2 x).patterns = (windows x 2 1).map lab2 := by
    have : (ordDim2 x).patterns = ((windows x 2 1).map
        (fun w => decide (w.getD 0 default < w.getD 1 default))).map (fun p => if p then [0, 1] else [1, 0]) := by
      unfold ordDim2
      simp only [dim2_gt]
      split_ifs <;> rfl
    rw [this, List.map_map]
    refine List.map_congr_left fun w _ => ?_
    simp only [Function.comp, lab2, decide_eq_true_eq]
  refine ⟨?_, hpat⟩
  -- abbreviations
  generalize hP : (windows x 2 1).map lab2 = P at hpat
  have hPl : P.length = x.length - 1 := by rw [← hP, List.length_map, hw]
  have hPne : P ≠ [] := by intro h; rw [h] at hPl; simp at hPl; omega
  have hmem : ∀ p ∈ P, p = [0, 1] ∨ p = [1, 0] := by
    rw [← hP]
    intro p hp
    obtain ⟨w, _, rfl⟩ := List.mem_map.1 hp
    unfold lab2; split_ifs <;> simp
  have hN : (0:ℝ) < P.length := by have := List.length_pos_iff.2 hPne; exact_mod_cast this
  have hlen : (x.length : ℝ) - 1 = P.length := by
    rw [hPl, Nat.cast_sub (by omega)]; simp
  have hg : ((((windows x 2 1).map (fun w => decide (w.getD 0 default < w.getD 1 default))).countP
      (fun p => p) : ℕ) : ℝ) / ((x.length : ℝ) - 1) = freq P [0, 1] := by
    rw [hlen, freq, ← hP, cnt_map, List.countP_map]
    congr 2
    refine List.countP_congr fun w _ => ?_
    simp only [Function.comp, lab2, decide_eq_true_eq]
    split_ifs with h
    · simp only [h, decide_true]
    · simp only [h, false_iff]; decide
  have hsum : freq P [0, 1] + freq P [1, 0] = 1 := by
    have h1 : cnt P [0, 1] + cnt P [1, 0] = P.length := by
      clear hg hlen hN hPne hPl hpat hP
      induction P with
      | nil => rfl
      | cons p P ih =>
        have := ih (fun q hq => hmem q (by simp [hq]))
        rw [cnt_cons, cnt_cons, List.length_cons]
        rcases hmem p (by simp) with rfl | rfl <;> simp <;> omega
    have h2 : (cnt P [0, 1] : ℝ) + cnt P [1, 0] = P.length := by exact_mod_cast h1
    unfold freq
    rw [← add_div, h2, div_self hN.ne']
  have hzero : ∀ a : List Nat, freq P a = 0 → a ∉ P := fun a h ha => (freq_pos ha).ne' h
  have hconst : ∀ a c : List Nat, freq P a = 0 → (∀ p ∈ P, p = a ∨ p = c) → entropy P = 0 := by
    intro a c ha hac
    rw [entropy_eq_zero_iff]
    intro p hp q hq
    have h1 : ∀ p ∈ P, p = c := fun p hp => (hac p hp).resolve_left (fun h => hzero a ha (h ▸ hp))
    rw [h1 p hp, h1 q hq]
  unfold ordDim2
  simp only [dim2_gt]
  rw [hg]
  have hpat' : ((windows x 2 1).map (fun w => decide (w.getD 0 default < w.getD 1 default))).map
      (fun p => if p then [0, 1] else [1, 0]) = P := by
    rw [← hP, List.map_map]
    refine List.map_congr_left fun w _ => ?_
    simp only [Function.comp, lab2, decide_eq_true_eq]
  rw [hpat']
  have hone : ∀ b : Base, b.Valid → ordSum b [1] = .ok (0 / b.ln) := by
    intro b hb
    rw [ordSum_ok hb _ (by simp)]; simp
  have hm : ∀ a, 0 < freq P a → a ∈ P := fun a ha => by
    rw [← cnt_pos_iff]
    by_contra hc
    have : cnt P a = 0 := by omega
    simp [freq, this] at ha
  split_ifs with h0 h1
  · refine ⟨fun b hb => ?_, fun p hp => ?_, by simp, by
      have := hm [1, 0] (by linarith)
      simpa using this⟩
    · rw [hone b hb, hconst _ _ h0 hmem]
    · rcases hmem p hp with rfl | rfl
      · exact absurd hp (hzero _ h0)
      · have : freq P [1, 0] = 1 := by linarith
        simp [dictGet, this]
  · have h2 : freq P [1, 0] = 0 := by linarith
    refine ⟨fun b hb => ?_, fun p hp => ?_, by simp, by
      have := hm [0, 1] (by linarith)
      simpa using this⟩
    · rw [hone b hb, hconst _ _ h2 (fun p hp => (hmem p hp).symm)]
    · rcases hmem p hp with rfl | rfl
      · simp [dictGet, h1]
      · exact absurd hp (hzero _ h2)
  · have h2 : 1 - freq P [0, 1] = freq P [1, 0] := by linarith
    have hp1 : 0 < freq P [0, 1] := lt_of_le_of_ne (freq_nonneg _ _) (Ne.symm h0)
    have hp2 : 0 < freq P [1, 0] := lt_of_le_of_ne (freq_nonneg _ _) (fun h => h1 (by linarith))
    have hfs : P.toFinset = {[0, 1], [1, 0]} := by
      ext a
      simp only [List.mem_toFinset, Finset.mem_insert, Finset.mem_singleton]
      refine ⟨hmem a, ?_⟩
      rintro (rfl | rfl)
      · exact hm _ hp1
      · exact hm _ hp2
    rw [h2]
    refine ⟨fun b hb => ?_, fun p hp => ?_, by simp, by
      have h1 := hm [0, 1] hp1
      have h2 := hm [1, 0] hp2
      simpa using ⟨h1, h2⟩⟩
    · rw [ordSum_ok hb _ (by simp [hp1, hp2]), entropy, hfs, Finset.sum_pair (by decide)]
      congr 1
      simp; ring
    · rcases hmem p hp with rfl | rfl
      · simp [dictGet]
      · simp [dictGet]

/-- the dimension-3 path never fails and is consistent -/
theorem ordDim3_good (x : List α) (hx : 3 ≤ x.length) :
    ∃ o, ordDim3 x = .ok o ∧ o.Good ∧ o.patterns = (windows x 3 1).map lab3 := by
  have hw : (windows x 3 1).length = x.length - 2 := by rw [windows_length]
  have hlen : (x.length : ℝ) - 2 = ((dim3Keys x).length : ℝ) := by
    rw [dim3_keys, List.length_map, hw, Nat.cast_sub (by omega)]; simp
  have hval : ∀ k ∈ dim3Keys x, boolToNum k = .ok (num3 k) := by
    intro k hk
    rw [dim3_keys] at hk
    obtain ⟨w, _, rfl⟩ := List.mem_map.1 hk
    exact boolToNum_key3 w
  have hinj : ∀ u ∈ dim3Keys x, ∀ v ∈ dim3Keys x, num3 u = num3 v → u = v := by
    intro u hu v hv h
    rw [dim3_keys] at hu hv
    obtain ⟨w, _, rfl⟩ := List.mem_map.1 hu
    obtain ⟨w', _, rfl⟩ := List.mem_map.1 hv
    exact num3_inj w w' h
  have h1 : (pyCounter (dim3Keys x)).mapM (fun e => boolToNum e.1)
      = .ok ((pyCounter (dim3Keys x)).map (fun e => num3 e.1)) := by
    refine mapM_ok _ fun e he => ?_
    rw [pyCounter_eq] at he
    obtain ⟨k, hk, rfl⟩ := List.mem_map.1 he
    exact hval k (mem_counterKeys.1 hk)
  have h2 : (dim3Keys x).mapM boolToNum = .ok ((dim3Keys x).map num3) := mapM_ok _ hval
  have hfil : ((pyCounter (dim3Keys x)).map (fun e => (e.2 : ℝ) / ((dim3Keys x).length : ℝ))).filter
      (fun p => decide (p ≠ 0)) = (pyCounter (dim3Keys x)).map (fun e => (e.2 : ℝ) / ((dim3Keys x).length : ℝ)) := by
    rw [List.filter_eq_self]
    intro p hp
    obtain ⟨e, he, rfl⟩ := List.mem_map.1 hp
    rw [pyCounter_eq] at he
    obtain ⟨k, hk, rfl⟩ := List.mem_map.1 he
    have := freq_pos (mem_counterKeys.1 hk)
    simp only [freq] at this
    simp only [ne_eq, decide_not, Bool.not_eq_eq_eq_not, Bool.not_true, decide_eq_false_iff_not]
    exact this.ne'
  refine ⟨_, ?_, counter_good (dim3Keys x) num3 hinj, ?_⟩
  · unfold ordDim3
    simp only [h1, h2, bind, Except.bind, pure, Except.pure, hlen]
    congr 2
  · simp only [dim3_keys, List.map_map]; rfl

/-- the generic path is consistent -/
theorem ordGeneric_good (q : Argsort α) (x : List α) {d s : Nat} (hd : 1 ≤ d) (hs : 1 ≤ s)
    (hn : (d - 1) * s < x.length) (stable : Bool) :
    ∃ o, ordGeneric q x d s stable = .ok o ∧ o.Good ∧
      o.patterns = (windows x d s).map (sortFun q stable) := by
  refine ⟨_, ?_, counter_good ((windows x d s).map (sortFun q stable)) id (fun _ _ _ _ h => h), ?_⟩
  · unfold ordGeneric
    simp only [symbolize_ok q x hd hs hn, bind, Except.bind, pure, Except.pure]
    have : ((((x.length : Int) - ((d : Int) - 1) * s : Int)) : ℝ)
        = (((windows x d s).map (sortFun q stable)).length : ℝ) := by
      rw [List.length_map, windows_length, Nat.cast_sub hn.le, Nat.cast_mul, Nat.cast_sub hd]
      push_cast; ring
    rw [this]
    simp only [List.map_id]; rfl
  · simp

/-- the label an estimator assigns to a window -/
def ordLabel (q : Argsort α) (stable : Bool) (d s : Nat) (w : List α) : List Nat :=
  if d = 2 ∧ s = 1 then lab2 w else if d = 3 ∧ s = 1 then lab3 w else sortFun q stable w

theorem ordProbabilities_good (q : Argsort α) (x : List α) {d s : Nat} (hd : 1 ≤ d) (hs : 1 ≤ s)
    (hn : (d - 1) * s < x.length) (stable : Bool) :
    ∃ o, ordProbabilities q x d s stable = .ok o ∧ o.Good ∧
      o.patterns = (windows x d s).map (ordLabel q stable d s) := by
  have hlab : ordLabel q stable d s = fun w => if d = 2 ∧ s = 1 then lab2 w
      else if d = 3 ∧ s = 1 then lab3 w else sortFun q stable w := rfl
  rw [hlab]
  unfold ordProbabilities
  by_cases h2 : d = 2 ∧ s = 1
  · obtain ⟨rfl, rfl⟩ := h2
    simp only [Nat.cast_ofNat, Nat.cast_one, and_self, if_true]
    exact ⟨_, rfl, ordDim2_good x (by omega)⟩
  by_cases h3 : d = 3 ∧ s = 1
  · obtain ⟨rfl, rfl⟩ := h3
    have := ordDim3_good x (by omega)
    simpa using this
  · have e2 : ¬ ((d : Int) = 2 ∧ (s : Int) = 1) := fun h => h2 (by omega)
    have e3 : ¬ ((d : Int) = 3 ∧ (s : Int) = 1) := fun h => h3 (by omega)
    simp only [e2, e3, if_false, h2, h3]
    exact ordGeneric_good q x hd hs hn stable

end

end Verif
