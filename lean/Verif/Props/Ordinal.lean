import Verif.Lemmas.Ordinal3

/-! # Properties C26, C27 : Lehmer codes and symbolisation -/

namespace Verif

open Spec

/-! ## C26 -/

/-- **C26** For every permutation of `0 … n−1`, `n ≤ 20`, `permutation_to_integer` (default type)
returns its rank in lexicographic order: the number of permutations of `0 … n−1` that are
lexicographically smaller. -/
theorem C26_code_is_lexicographic_rank (n : Nat) (hn : n ≤ 20) (p : List Nat) (hp : p.Perm (List.range n)) :
    permutationToInteger p
      = .ok ((List.range n).permutations.toFinset.filter (fun q => q < p)).card := by
  have hl : p.length = n := by rw [hp.length_eq, List.length_range]
  have hf : p.length.factorial ≤ 2 ^ UIntT.u64.bits :=
    (Nat.factorial_le (hl ▸ hn)).trans (by decide)
  rw [permutationToInteger_exact (by omega) hf]
  congr 1
  have himg : ((List.range n).permutations.toFinset.filter (fun q => q < p)).image lehmer
      = Finset.range (lehmer p) := by
    ext k
    simp only [Finset.mem_image, Finset.mem_filter, List.mem_toFinset, List.mem_permutations,
      Finset.mem_range]
    constructor
    · rintro ⟨q, ⟨hq, hlt⟩, rfl⟩
      exact lehmer_lex (hq.trans hp.symm) hlt
    · intro hk
      obtain ⟨q, hq, rfl⟩ := lehmer_surj n k (hk.trans (by have := lehmer_lt p; rwa [hl] at this))
      exact ⟨q, ⟨hq, (lehmer_lt_iff (hq.trans hp.symm)).1 hk⟩, rfl⟩
  rw [← Finset.card_range (lehmer p), ← himg, Finset.card_image_of_injOn]
  intro q hq r hr h
  simp only [Finset.coe_filter, Set.mem_setOf_eq, List.mem_toFinset, List.mem_permutations] at hq hr
  exact lehmer_inj (hq.1.trans hr.1.symm) h

example := C26_code_is_lexicographic_rank 4 (by decide) [2, 0, 3, 1] (by decide)

/-- **C26** With the default type, or the type symbolisation chooses for dimension `n ≤ 20`, the codes
of the permutations of `0 … n−1` are: all defined, below `n!`, strictly increasing in lexicographic
order (hence injective), and every integer below `n!` is the code of a permutation. -/
theorem C26_codes_bijective (n : Nat) (hn : n ≤ 20) (dt : UIntT) (hdt : dt = .u64 ∨ dt = symbolType n) :
    ∃ code : List Nat → Nat,
      (∀ p : List Nat, p.Perm (List.range n) → permutationToInteger p dt = .ok (code p) ∧ code p < n.factorial) ∧
      (∀ p q : List Nat, p.Perm (List.range n) → q.Perm (List.range n) → (code p < code q ↔ p < q)) ∧
      (∀ p q : List Nat, p.Perm (List.range n) → q.Perm (List.range n) → code p = code q → p = q) ∧
      (∀ k, k < n.factorial → ∃ p : List Nat, p.Perm (List.range n) ∧ permutationToInteger p dt = .ok k) := by
  have hfits : n.factorial ≤ 2 ^ dt.bits := by
    rcases hdt with rfl | rfl
    · exact (Nat.factorial_le hn).trans (by decide)
    · exact symbolType_fits hn
  have key : ∀ p : List Nat, p.Perm (List.range n) → permutationToInteger p dt = .ok (lehmer p) := by
    intro p hp
    have hl : p.length = n := by rw [hp.length_eq, List.length_range]
    exact permutationToInteger_exact (by omega) (hl ▸ hfits)
  refine ⟨lehmer, fun p hp => ⟨key p hp, ?_⟩, fun p q hp hq => lehmer_lt_iff (hp.trans hq.symm),
    fun p q hp hq h => lehmer_inj (hp.trans hq.symm) h, fun k hk => ?_⟩
  · have := lehmer_lt p
    rwa [hp.length_eq, List.length_range] at this
  · obtain ⟨p, hp, rfl⟩ := lehmer_surj n k hk
    exact ⟨p, hp, key p hp⟩

example := C26_codes_bijective 4 (by decide) (symbolType 4) (.inr rfl)

/-- **C26** the type chosen by symbolisation holds every code of its dimension (no overflow), and the
largest code `n! − 1` is strictly below its maximum for the types smaller than 64 bit. -/
theorem C26_symbol_type_never_overflows (n : Nat) (hn : n ≤ 20) :
    n.factorial ≤ 2 ^ (symbolType n).bits ∧
      (symbolType n ≠ .u64 → n.factorial < 2 ^ (symbolType n).bits - 1) := by
  refine ⟨symbolType_fits hn, ?_⟩
  unfold symbolType
  split_ifs <;> simp only [UIntT.bits, ne_eq, not_true_eq_false, false_implies] <;> omega

example := C26_symbol_type_never_overflows 20 (by decide)

/-- **C26** patterns longer than 20 are rejected with a ValueError, whatever their content and type. -/
theorem C26_long_patterns_rejected (p : List Nat) (hp : 20 < p.length) (dt : UIntT) :
    permutationToInteger p dt = .error .valueError := by
  unfold permutationToInteger
  simp only []
  rw [if_pos (by omega)]

example := C26_long_patterns_rejected (List.range 21) (by simp) .u64

/-- **C26** an explicitly passed small type gives the rank modulo its size: codes can collide
(`n = 6`, `uint8`). -/
theorem C26_explicit_small_type_wraps (p : List Nat) (hp : p.length ≤ 20) (dt : UIntT) :
    ∃ c, permutationToInteger p .u64 = .ok c ∧ permutationToInteger p dt = .ok (c % 2 ^ dt.bits) := by
  refine ⟨lehmer p, permutationToInteger_exact hp ?_, permutationToInteger_eq hp dt (bits_ge dt)⟩
  exact (Nat.factorial_le hp).trans (by decide)

example : ([1, 0, 2] : List Nat).Perm (List.range 3) ∧ permutationToInteger [1, 0, 2] = .ok 2 := by
  refine ⟨by decide, by decide⟩

example : permutationToInteger [0, 1, 2, 3, 4, 5] .u8 = permutationToInteger [2, 0, 4, 5, 1, 3] .u8 := by
  decide

/-! ## C27 -/

section
variable {α : Type} [LinearOrder α] [Inhabited α]

/-- **C27** For every series with at least one window: one symbol per window, `n − (d−1)·step` in all;
symbol `i` is a permutation of `0 … d−1` that lists the window `x_i, x_{i+step}, …` in non-decreasing
order, and with `stable` equal values keep their order. -/
theorem C27_symbols (q : Argsort α) (x : List α) (d s : Nat) (hd : 1 ≤ d) (hs : 1 ≤ s)
    (hn : (d - 1) * s < x.length) (stable : Bool) :
    ∃ pats, symbolize q x d s stable = .ok pats ∧ pats.length = x.length - (d - 1) * s ∧ 0 < pats.length ∧
      ∀ i, i < x.length - (d - 1) * s → ∃ p, pats[i]? = some p ∧ p.Perm (List.range d) ∧
        p.Pairwise (fun j k => x.getD (i + j * s) default ≤ x.getD (i + k * s) default) ∧
        (stable = true → p.Pairwise (fun j k =>
          x.getD (i + j * s) default < x.getD (i + k * s) default ∨
          (x.getD (i + j * s) default = x.getD (i + k * s) default ∧ j < k))) := by
  refine ⟨_, symbolize_ok q x hd hs hn stable, by simp [windows], by simp [windows]; omega, fun i hi => ?_⟩
  let w := (List.range d).map (fun j => x.getD (i + j * s) default)
  have hw : w ∈ windows x d s := List.mem_map.2 ⟨i, List.mem_range.2 hi, rfl⟩
  have hget : ∀ j, j < d → w.getD j default = x.getD (i + j * s) default := by
    intro j hj
    simp [w, hj]
  have hperm := sortFun_perm_of_mem q stable hw
  have hmem : ∀ j ∈ sortFun q stable w, j < d := fun j hj => List.mem_range.1 (hperm.mem_iff.1 hj)
  refine ⟨sortFun q stable w, ?_, hperm, ?_, ?_⟩
  · simp [windows, hi, w]
  · have := (sortFun_isArgsort q stable w).sorted
    rw [List.pairwise_map] at this
    refine this.imp_of_mem fun {a b} ha hb hab => ?_
    rwa [hget a (hmem a ha), hget b (hmem b hb)] at hab
  · rintro rfl
    have : (sortFun q true w).Pairwise (fun i j => w.getD i default < w.getD j default ∨
      (w.getD i default = w.getD j default ∧ i < j)) := argsortStable_stable w
    refine this.imp_of_mem fun {a b} ha hb hab => ?_
    rwa [hget a (hmem a ha), hget b (hmem b hb)] at hab

example := C27_symbols stableSort [3, 1, 1, 5, 4, 0] 3 2 (by decide) (by decide) (by decide) true

/-- **C27** symbolisation fails exactly — with ValueError — when the dimension or the step is not
positive or no window fits. -/
theorem C27_symbolize_rejects (q : Argsort α) (x : List α) (d s : Int) (stable : Bool) :
    (symbolize q x d s stable = .error .valueError ↔ d < 1 ∨ s < 1 ∨ (x.length : Int) ≤ (d - 1) * s) ∧
    (∀ e, symbolize q x d s stable = .error e → e = .valueError) := by
  unfold symbolize
  split_ifs with h1 h2 h3
  · simp [h1]
  · simp [h2]
  · simp [h3]
  · simp [h1, h2, h3]

/-- the comparisons inside every window of two series agree -/
def SameComparisons {β : Type} [LinearOrder β] [Inhabited β] (x : List α) (y : List β) (d s : Nat) : Prop :=
  x.length = y.length ∧ ∀ i, i < x.length - (d - 1) * s → ∀ j k, j < d → k < d →
    (x.getD (i + j * s) default ≤ x.getD (i + k * s) default ↔
      y.getD (i + j * s) default ≤ y.getD (i + k * s) default)

theorem window_sameOrder {β : Type} [LinearOrder β] [Inhabited β] {x : List α} {y : List β} {d s : Nat}
    (h : SameComparisons x y d s) {i : Nat} (hi : i < x.length - (d - 1) * s) :
    SameOrder ((List.range d).map (fun j => x.getD (i + j * s) default))
      ((List.range d).map (fun j => y.getD (i + j * s) default)) := by
  refine ⟨by simp, fun j hj k hk => ?_⟩
  have hj : j < d := by simpa using hj
  have hk : k < d := by simpa using hk
  have := h.2 i hi j k hj hk
  simpa [hj, hk] using this

/-- **C27** The symbols depend only on the comparisons inside the windows: two series (even of
different value types and sorted by different `argsort` implementations) with the same comparisons
have the same symbols, if sorting is stable or the windows have no ties. -/
theorem C27_depends_on_comparisons_only {β : Type} [LinearOrder β] [Inhabited β] (q : Argsort α)
    (q' : Argsort β) (x : List α) (y : List β) (d s : Nat) (h : SameComparisons x y d s)
    (stable : Bool) (ht : stable = true ∨ TieFree x d s) :
    symbolize q x d s stable = symbolize q' y d s stable ∧
      symbolizeInt q x d s stable = symbolizeInt q' y d s stable := by
  have key : symbolize q x d s stable = symbolize q' y d s stable := by
    unfold symbolize
    rw [← h.1]
    split_ifs
    · rfl
    · rfl
    · rfl
    · congr 1
      simp only [Int.toNat_natCast, windows, List.map_map, ← h.1]
      refine List.map_congr_left fun i hi => ?_
      simp only [Function.comp]
      refine sortFun_sameOrder (window_sameOrder h (List.mem_range.1 hi)) q q' stable ?_
      refine ht.imp id fun ht => ht _ (List.mem_map.2 ⟨i, hi, rfl⟩)
  refine ⟨key, ?_⟩
  unfold symbolizeInt
  rw [key]

example := C27_depends_on_comparisons_only stableSort stableSort [3, 1, 2] [30, 10, 25] 3 1 ⟨rfl, fun i hi j k hj hk => by simp only [List.length_cons, List.length_nil] at hi; interval_cases i; interval_cases j <;> interval_cases k <;> decide⟩ false (.inr (by unfold TieFree delayVectors; decide))

/-- **C27** In particular every strictly increasing transformation of the data leaves the symbols
unchanged (stable sorting, or no ties in a window). -/
theorem C27_invariant_under_increasing_maps {β : Type} [LinearOrder β] [Inhabited β] (q : Argsort α)
    (q' : Argsort β) (x : List α) (f : α → β) (hf : StrictMono f) (d s : Nat)
    (stable : Bool) (ht : stable = true ∨ TieFree x d s) :
    symbolize q' (x.map f) d s stable = symbolize q x d s stable ∧
      symbolizeInt q' (x.map f) d s stable = symbolizeInt q x d s stable := by
  have h : SameComparisons x (x.map f) d s := by
    refine ⟨by simp, fun i hi j k hj hk => ?_⟩
    have b : ∀ j, j < d → i + j * s < x.length := by
      intro j hj
      have : j * s ≤ (d - 1) * s := Nat.mul_le_mul_right s (by omega)
      omega
    have e : ∀ j, j < d → (x.map f).getD (i + j * s) default = f (x.getD (i + j * s) default) := by
      intro j hj
      simp [List.getElem?_eq_getElem (b j hj)]
    rw [e j hj, e k hk, hf.le_iff_le]
  have := C27_depends_on_comparisons_only q q' x (x.map f) d s h stable ht
  exact ⟨this.1.symm, this.2.symm⟩

example := C27_invariant_under_increasing_maps stableSort stableSort [3, 1, 1, 5, 4, 0] (fun x => 2 * x + 1) (fun a b h => by simpa using h) 3 2
  true (.inl rfl)

/-- **C27** On tie-free windows the symbols carry all comparisons: two windows of a series get the
same symbol exactly when all their comparisons (equivalently, their rank patterns) agree. -/
theorem C27_symbols_complete (q : Argsort α) (x : List α) (d s : Nat) (hd : 1 ≤ d) (hs : 1 ≤ s)
    (hn : (d - 1) * s < x.length) (stable : Bool) (ht : TieFree x d s) :
    ∃ pats, symbolize q x d s stable = .ok pats ∧
      ∀ i j, i < pats.length → j < pats.length →
        (pats[i]? = pats[j]? ↔
          rankPattern ((delayVectors x d s).getD i []) = rankPattern ((delayVectors x d s).getD j [])) := by
  refine ⟨_, symbolize_ok q x hd hs hn stable, fun i j hi hj => ?_⟩
  have hi : i < (windows x d s).length := by simpa using hi
  have hj : j < (windows x d s).length := by simpa using hj
  have e : delayVectors x d s = windows x d s := rfl
  have mi := List.getElem_mem hi
  have mj := List.getElem_mem hj
  rw [e, rankPattern_eq_iff]
  simp only [List.getElem?_map, List.getElem?_eq_getElem hi, List.getElem?_eq_getElem hj,
    Option.map_some, Option.some_inj, List.getD_eq_getElem?_getD, Option.getD_some]
  exact sortFun_eq_iff q stable (by rw [mem_windows_length mi, mem_windows_length mj]) (ht _ mi) (ht _ mj)

example := C27_symbols_complete stableSort [3, 1, 2, 5, 4, 0] 3 1 (by decide) (by decide) (by decide) false (by unfold TieFree delayVectors; decide)

end

example : TieFree ([4, 7, 9, 10, 6, 11, 3] : List Int) 3 1 ∧ (3 - 1) * 1 < ([4, 7, 9, 10, 6, 11, 3] : List Int).length ∧
    StrictMono (fun v : Int => 2 * v + 1) := by
  refine ⟨by unfold TieFree; decide, by decide, fun a b h => ?_⟩
  show 2 * a + 1 < 2 * b + 1
  omega

end Verif
