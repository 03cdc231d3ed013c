import Verif.Model.Ordinal
import Mathlib.Data.List.Permutation
import Mathlib.Data.List.Lex
import Mathlib.Data.Finset.Card
import Mathlib.Tactic.Ring
import Mathlib.Tactic.IntervalCases

/-! # Lehmer codes -/

namespace Verif

/-- the mathematical Lehmer code: number of smaller later entries, in the factorial number system -/
def lehmer : List Nat → Nat
  | [] => 0
  | a :: l => l.countP (fun b => decide (b < a)) * l.length.factorial + lehmer l

theorem lehmer_lt (l : List Nat) : lehmer l < l.length.factorial := by
  induction l with
  | nil => simp [lehmer]
  | cons a l ih =>
    have : l.countP (fun b => decide (b < a)) ≤ l.length := List.countP_le_length
    simp only [lehmer, List.length_cons, Nat.factorial_succ]
    have := Nat.mul_le_mul_right l.length.factorial this
    rw [Nat.add_mul, Nat.one_mul]
    omega

theorem lehmer_lex {l m : List Nat} (hp : l.Perm m) (h : l < m) : lehmer l < lehmer m := by
  induction l generalizing m with
  | nil =>
    have : m = [] := hp.nil_eq.symm
    subst this; exact absurd h (lt_irrefl _)
  | cons a l ih =>
    cases m with
    | nil => exact absurd hp.length_eq (by simp)
    | cons c m =>
      have hl : l.length = m.length := by have := hp.length_eq; simpa using this
      rcases List.cons_lt_cons_iff.1 h with hac | ⟨rfl, h'⟩
      · have h1 : (c :: m).countP (fun b => decide (b < a)) = (a :: l).countP (fun b => decide (b < a)) :=
          (hp.countP_eq _).symm
        have hca : ¬ c < a := by omega
        simp only [List.countP_cons, hca, lt_irrefl, decide_false] at h1
        have ham : a ∈ m := by
          have : a ∈ c :: m := hp.mem_iff.1 (by simp)
          rcases List.mem_cons.1 this with h | h
          · omega
          · exact h
        have h2 : m.countP (fun b => decide (b < a)) < m.countP (fun b => decide (b < c)) := by
          obtain ⟨s, t, rfl⟩ := List.append_of_mem ham
          have e1 : ∀ u : List Nat, u.countP (fun b => decide (b < a)) ≤ u.countP (fun b => decide (b < c)) :=
            fun u => List.countP_mono_left fun x _ hx => by simp at *; omega
          simp only [List.countP_append, List.countP_cons, lt_irrefl, decide_false, hac, decide_true]
          have := e1 s
          have := e1 t
          simp
          omega
        have h3 : l.countP (fun b => decide (b < a)) = m.countP (fun b => decide (b < a)) := by
          simpa using h1.symm
        have h4 := lehmer_lt l
        simp only [lehmer, h3, hl] at *
        have := Nat.mul_le_mul_right m.length.factorial h2
        rw [Nat.succ_mul] at this
        omega
      · have hp' : l.Perm m := (List.perm_cons a).1 hp
        have h1 : l.countP (fun b => decide (b < a)) = m.countP (fun b => decide (b < a)) := hp'.countP_eq _
        have := ih hp' h'
        simp only [lehmer, h1, hl]; omega

theorem lehmer_lt_iff {l m : List Nat} (hp : l.Perm m) : lehmer l < lehmer m ↔ l < m := by
  refine ⟨fun h => ?_, lehmer_lex hp⟩
  rcases lt_trichotomy l m with h' | h' | h'
  · exact h'
  · subst h'; omega
  · have := lehmer_lex hp.symm h'; omega

theorem lehmer_inj {l m : List Nat} (hp : l.Perm m) (h : lehmer l = lehmer m) : l = m := by
  rcases lt_trichotomy l m with h' | h' | h'
  · have := lehmer_lex hp h'; omega
  · exact h'
  · have := lehmer_lex hp.symm h'; omega

theorem lehmer_surj (n k : Nat) (hk : k < n.factorial) : ∃ p : List Nat, p.Perm (List.range n) ∧ lehmer p = k := by
  have hnd : (List.range n).permutations.Nodup := List.nodup_permutations _ (List.nodup_range)
  let S := (List.range n).permutations.toFinset
  have hS : S.card = n.factorial := by
    rw [List.toFinset_card_of_nodup hnd, List.length_permutations, List.length_range]
  have hmem : ∀ p, p ∈ S ↔ p.Perm (List.range n) := fun p => by simp [S]
  have himg : S.image lehmer = Finset.range n.factorial := by
    refine Finset.eq_of_subset_of_card_le ?_ ?_
    · intro x hx
      obtain ⟨p, hp, rfl⟩ := Finset.mem_image.1 hx
      have := lehmer_lt p
      rw [((hmem p).1 hp).length_eq, List.length_range] at this
      exact Finset.mem_range.2 this
    · rw [Finset.card_range, Finset.card_image_of_injOn, hS]
      intro p hp q hq h
      exact lehmer_inj (((hmem p).1 hp).trans ((hmem q).1 hq).symm) h
  have : k ∈ S.image lehmer := by rw [himg]; exact Finset.mem_range.2 hk
  obtain ⟨p, hp, h⟩ := Finset.mem_image.1 this
  exact ⟨p, (hmem p).1 hp, h⟩

/-! ## the model computes the Lehmer code -/

theorem f64_mul_fact : ∀ i < 20, ∀ c ≤ i, f64 (f64 c * f64 i.factorial) = c * i.factorial := by
  decide +kernel

theorem fact_bound : ∀ i < 20, ∀ c ≤ i, c * i.factorial < 2 ^ 64 := by
  decide +kernel

theorem mulFact_eq (dt : UIntT) {i c : Nat} (hi : i < 20) (hc : c ≤ i) :
    mulFact dt c i.factorial = c * i.factorial := by
  cases dt
  case u64 => exact f64_mul_fact i hi c hc
  all_goals exact Nat.mod_eq_of_lt (fact_bound i hi c hc)

theorem lehmer_sum (l : List Nat) :
    lehmer l = ((List.range l.length).map (fun i =>
      (l.drop (i + 1)).countP (fun b => decide (l.getD i 0 > b)) * (l.length - 1 - i).factorial)).sum := by
  induction l with
  | nil => rfl
  | cons a l ih =>
    rw [List.length_cons, List.range_succ_eq_map, List.map_cons, List.sum_cons, List.map_map]
    simp only [lehmer, ih]
    congr 1
    refine congrArg List.sum (List.map_congr_left fun i hi => ?_)
    simp only [Function.comp, List.drop_succ_cons, List.getD_cons_succ]
    have := List.mem_range.1 hi
    congr 2
    omega

theorem permutationToInteger_eq {p : List Nat} (hn : p.length ≤ 20) (dt : UIntT)
    (hd : 19 < 2 ^ dt.bits) : permutationToInteger p dt = .ok (lehmer p % 2 ^ dt.bits) := by
  unfold permutationToInteger
  simp only []
  rw [if_neg (by omega), lehmer_sum]
  congr 3
  refine List.map_congr_left fun i hi => ?_
  have hi := List.mem_range.1 hi
  have h1 : (p.drop (i + 1)).countP (fun b => decide (p.getD i 0 > b)) ≤ p.length - 1 - i := by
    refine List.countP_le_length.trans ?_
    rw [List.length_drop]; omega
  rw [Nat.mod_eq_of_lt (lt_of_le_of_lt h1 (by omega)), mulFact_eq dt (by omega) h1]

theorem bits_ge (dt : UIntT) : 19 < 2 ^ dt.bits := by cases dt <;> decide

theorem permutationToInteger_exact {p : List Nat} {dt : UIntT} (hn : p.length ≤ 20)
    (hd : p.length.factorial ≤ 2 ^ dt.bits) : permutationToInteger p dt = .ok (lehmer p) := by
  rw [permutationToInteger_eq hn dt (bits_ge dt), Nat.mod_eq_of_lt (lt_of_lt_of_le (lehmer_lt p) hd)]

theorem symbolType_fits {d : Nat} (hd : d ≤ 20) : d.factorial ≤ 2 ^ (symbolType d).bits := by
  unfold symbolType
  split_ifs with h1 h2 h3
  · simp only [UIntT.bits]; omega
  · simp only [UIntT.bits]; omega
  · simp only [UIntT.bits]; omega
  · exact (Nat.factorial_le hd).trans (by decide)

end Verif
