import Verif.Props.EndToEndEffective
import Verif.Props.EndToEndTest2

/-!
# C82, C84, C87, C88: which calls of the factory have a value, local values, a test and an effective value
-/

namespace Verif

open Spec

variable {W : World} {data : List PyData} {c : Option PyData} {meas : PyName} {a : PyName} {kw : Kw}

/-- the mutual information of one variable: the factory then returns its entropy (`estimators/functional.py:733-742`) -/
def OneVariable (L : PyLower) (m : String) (data : List PyData) : Prop :=
  data.length = 1 ∧ (measureComp L m ∈ measureNames .mi ∨ measureComp L m ∈ measureNames .cmi)

theorem asked_names {t : String} (h1 : t ∉ measureNames .h) (h2 : t ∉ crossNames) : t ∉ ["entropy", "h", "cross_entropy", "hx"] := fun h => by
  rcases List.mem_append.1 (show t ∈ ["entropy", "h"] ++ ["cross_entropy", "hx"] from h) with h | h
  · exact h1 h
  · exact h2 h

theorem asked_entropy {L : PyLower} {x : PyName} {cl : EstClass} (h : getEstimator L entropyTable x = .ok cl) : cl.kind = .h := by
  rcases resolve_cases L .h x with ⟨_, f, hf, e2⟩ | ⟨_, e2⟩
  · have e2' : getEstimator L entropyTable x = .ok ⟨.h, f⟩ := e2
    rw [h] at e2'; cases e2'; rfl
  · have e2' : getEstimator L entropyTable x = .error .valueError := e2
    rw [h] at e2'; cases e2'

/-- a class call comes from a known measure, with the variables and the condition it takes, and a known approach; or it is the entropy class called for
the mutual information of one variable -/
theorem factory_asked {call : CtorCall PyData PyVal} (h : callEstimator W.lower PyVal.int data c meas a kw = .ok call) :
    ∃ s, meas = .str s ∧ ((∃ k f, Asks W.lower s data c k ∧ Names W.lower k a f) ∨
      (OneVariable W.lower s data ∧ ∃ f kw', call = { cls := ⟨.h, f⟩, data := data, cond := .absent, kw := kw' })) := by
  cases meas with
  | none => cases h
  | other => cases h
  | str s =>
    refine ⟨s, rfl, ?_⟩
    by_cases m1 : measureComp W.lower s ∈ measureNames .h
    · rcases C46_estimator_entropy_guard W.lower PyVal.int data c s a kw m1 with ⟨⟨p1, p2, -⟩, f, hf, -⟩ | ⟨-, e⟩
      · exact .inl ⟨.h, f, .inl ⟨m1, p1, p2⟩, hf⟩
      · rw [e] at h; cases h
    by_cases m2 : measureComp W.lower s ∈ crossNames
    · rcases C46_estimator_cross_entropy_guard W.lower PyVal.int data c s a kw m2 with ⟨⟨p1, p2, -⟩, f, hf, -⟩ | ⟨-, e⟩
      · exact .inl ⟨.h, f, .inr ⟨m2, p1, p2⟩, hf⟩
      · rw [e] at h; cases h
    have mi : ∀ k, (k = .mi ∨ k = .cmi) → measureComp W.lower s ∈ measureNames k →
        ((∃ k f, Asks W.lower s data c k ∧ Names W.lower k a f) ∨
          (OneVariable W.lower s data ∧ ∃ f kw', call = { cls := ⟨.h, f⟩, data := data, cond := .absent, kw := kw' })) := by
      intro k hk m3
      by_cases hd : 2 ≤ data.length
      · rcases C46_estimator_mi_guard W.lower PyVal.int data c s a kw k hk m3 hd with ⟨⟨p1, -⟩, f, hf, -⟩ | ⟨-, e⟩
        · refine .inl ⟨_, f, ?_, hf⟩
          cases c with
          | none =>
            rcases hk with rfl | rfl
            · exact ⟨m3, rfl, hd⟩
            · exact absurd (p1 rfl) (by simp)
          | some z => rcases hk with rfl | rfl <;> exact ⟨by simp [m3], rfl, hd⟩
        · rw [e] at h; cases h
      · right
        have q1 : measureComp W.lower s ∉ ["entropy", "h", "cross_entropy", "hx"] := by
          exact asked_names m1 m2
        have q2 : measureComp W.lower s ∈ ["mutual_information", "mi", "conditional_mutual_information", "cmi"] := by
          rcases hk with rfl | rfl
          · exact List.mem_append_left ["conditional_mutual_information", "cmi"] m3
          · exact List.mem_append_right ["mutual_information", "mi"] m3
        simp only [callEstimator, if_neg q1, if_pos q2] at h
        split_ifs at h with h1 h2 h3
        · simp only [bind, Except.bind, pure, Except.pure] at h
          split at h
          · cases h
          · split at h
            · cases h
            · rename_i cl hc
              have := asked_entropy hc
              refine ⟨⟨h3, by rcases hk with rfl | rfl <;> [exact .inl m3; exact .inr m3]⟩, cl.fam, restKw kw, ?_⟩
              have hd1 : data.take 1 = data := List.take_of_length_le (by omega)
              rw [hd1] at h
              cases h
              cases cl; simp_all
        · omega
    by_cases m3 : measureComp W.lower s ∈ measureNames .mi
    · exact mi .mi (.inl rfl) m3
    by_cases m4 : measureComp W.lower s ∈ measureNames .cmi
    · exact mi .cmi (.inr rfl) m4
    have te : ∀ k, (k = .te ∨ k = .cte) → measureComp W.lower s ∈ measureNames k → ∃ k f, Asks W.lower s data c k ∧ Names W.lower k a f := by
      intro k hk m3
      rcases C46_estimator_te_guard W.lower PyVal.int data c s a kw k hk m3 with ⟨⟨p1, p2, -⟩, f, hf, -⟩ | ⟨-, e⟩
      · refine ⟨_, f, ?_, hf⟩
        cases c with
        | none =>
          rcases hk with rfl | rfl
          · exact ⟨m3, rfl, p2⟩
          · exact absurd (p1 rfl) (by simp)
        | some z => rcases hk with rfl | rfl <;> exact ⟨by simp [m3], rfl, p2⟩
      · rw [e] at h; cases h
    by_cases m5 : measureComp W.lower s ∈ measureNames .te
    · exact .inl (te .te (.inl rfl) m5)
    by_cases m6 : measureComp W.lower s ∈ measureNames .cte
    · exact .inl (te .cte (.inr rfl) m6)
    rw [C46_estimator_unknown_measure W.lower PyVal.int data c s a kw (by intro k; cases k <;> assumption) m2] at h
    cases h

/-- **C84** only a call that asks for a measure by a known name, with the variables and the condition this measure takes, by a known approach, has local
values — and the mutual information of one variable, which is its entropy. -/
theorem C84_asked {ls : List ℝ} (h : imLocal W data c meas a kw = some (.ok ls)) :
    ∃ s, meas = .str s ∧ ((∃ k f, Asks W.lower s data c k ∧ Names W.lower k a f) ∨ OneVariable W.lower s data) := by
  unfold imLocal at h
  cases hc : callEstimator W.lower PyVal.int data c meas a kw with
  | error e => simp [hc] at h
  | ok call =>
    obtain ⟨s, rfl, hk | ⟨h1, -⟩⟩ := factory_asked hc
    · exact ⟨s, rfl, .inl hk⟩
    · exact ⟨s, rfl, .inr h1⟩

/-- **C82** the same for `im.estimator` -/
theorem C82_asked {v : ℝ} (h : imEstimator W data a kw c meas = .ok v) :
    ∃ s, meas = .str s ∧ ((∃ k f, Asks W.lower s data c k ∧ Names W.lower k a f) ∨ OneVariable W.lower s data) := by
  unfold imEstimator at h
  cases hc : callEstimator W.lower PyVal.int data c meas a kw with
  | error e => simp [hc, runCall, bind, Except.bind] at h
  | ok call =>
    obtain ⟨s, rfl, hk | ⟨h1, -⟩⟩ := factory_asked hc
    · exact ⟨s, rfl, .inl hk⟩
    · exact ⟨s, rfl, .inr h1⟩

section
variable {G : Type} {E : TestEnv G} {mth : Option String} {g : G} {nT : Option PyArg}

/-- **C88** only a call that asks for a transfer entropy or a conditional transfer entropy — by a known name, with two series, with a condition exactly
for the latter, by a known approach — has an effective value: every other call is an error (or outside the modelled fragment). -/
theorem C88_asked {v : ℝ} (h : imEffective E W mth g data c meas a kw = some (.ok v)) :
    ∃ s k f, meas = .str s ∧ (k = .te ∨ k = .cte) ∧ Asks W.lower s data c k ∧ Names W.lower k a f := by
  unfold imEffective at h
  cases hc : callEstimator W.lower PyVal.int data c meas a kw with
  | error e => simp [hc] at h
  | ok call =>
    obtain ⟨s, rfl, ⟨k, f, hk, hf⟩ | ⟨_, f, kw', rfl⟩⟩ := factory_asked hc
    · refine ⟨s, k, f, rfl, ?_, hk, hf⟩
      rw [asks_call hk hf] at hc
      cases hc
      rw [asks_call hk hf] at h
      simp only [buildEst, bind, Except.bind, pure, Except.pure] at h
      split at h
      · cases h
      · rename_i e he
        split at he
        · cases he
        · cases he
          cases k with
          | te => exact .inl rfl
          | cte => exact .inr rfl
          | h => simp [Est.effective] at h
          | mi =>
            simp only [Est.effective, Option.map_eq_some_iff, bind, Except.bind] at h
            obtain ⟨r, -, hr⟩ := h
            cases r <;> simp at hr
          | cmi =>
            simp only [Est.effective, Option.map_eq_some_iff, bind, Except.bind] at h
            obtain ⟨r, -, hr⟩ := h
            cases r <;> simp at hr
    · simp only [hc, buildEst, bind, Except.bind, pure, Except.pure] at h
      split at h
      · cases h
      · rename_i e he
        split at he
        · cases he
        · cases he
          simp [Est.effective] at h

/-- **C87** only a call that asks for a (conditional) mutual information or a (conditional) transfer entropy, by known names and with the variables and
the condition these take, has a test: every other call is an error. -/
theorem C87_asked {r : StatRes} (h : imTest E W nT mth g data c meas a kw = some (.ok r)) :
    ∃ s k f, meas = .str s ∧ k ≠ .h ∧ Asks W.lower s data c k ∧ Names W.lower k a f := by
  unfold imTest at h
  cases hc : callEstimator W.lower PyVal.int data c meas a kw with
  | error e => simp [hc] at h
  | ok call =>
    obtain ⟨s, rfl, ⟨k, f, hk, hf⟩ | ⟨_, f, kw', rfl⟩⟩ := factory_asked hc
    · refine ⟨s, k, f, rfl, ?_, hk, hf⟩
      rintro rfl
      rw [asks_call hk hf] at h
      simp only [buildEst, bind, Except.bind, pure, Except.pure] at h
      split at h
      · cases h
      · rename_i e he
        split at he
        · cases he
        · cases he
          simp [Est.test] at h
    · simp only [hc, buildEst, bind, Except.bind, pure, Except.pure] at h
      split at h
      · cases h
      · rename_i e he
        split at he
        · cases he
        · cases he
          simp [Est.test] at h

/-- **C84** a call of the factory that `im.estimator` refuses has no local values; the exception is the same. -/
theorem C84_same_error {e : Exc} (h : callEstimator W.lower PyVal.int data c meas a kw = .error e) :
    imEstimator W data a kw c meas = .error e ∧ imLocal W data c meas a kw = some (.error e) :=
  ⟨by simp [imEstimator, runCall, h, bind, Except.bind], by simp [imLocal, h]⟩

/-- **C87** nor a statistical test; the exception is the same. -/
theorem C87_same_error {e : Exc} (h : callEstimator W.lower PyVal.int data c meas a kw = .error e) :
    imEstimator W data a kw c meas = .error e ∧ imTest E W nT mth g data c meas a kw = some (.error e) :=
  ⟨by simp [imEstimator, runCall, h, bind, Except.bind], by simp [imTest, h]⟩

/-- **C87** **C88** a call of the factory that `im.estimator` refuses — for every generator state, with the same exception — has no test and no
effective value either; the exception is the same. -/
theorem C88_same_error {e : Exc} (h : callEstimator W.lower PyVal.int data c meas a kw = .error e) :
    imEstimator W data a kw c meas = .error e ∧ imTest E W nT mth g data c meas a kw = some (.error e) ∧
      imEffective E W mth g data c meas a kw = some (.error e) ∧ imLocal W data c meas a kw = some (.error e) := by
  refine ⟨?_, ?_, ?_, ?_⟩
  · simp [imEstimator, runCall, h, bind, Except.bind]
  · simp [imTest, h]
  · simp [imEffective, h]
  · simp [imLocal, h]


end

end Verif
