import Verif.Props.BaseChange3
import Verif.Props.EndToEnd4

/-!
# Two calls that differ in one keyword argument

The constructors treat the value of a keyword argument opaquely: two calls that differ only in the value of `key` build two
estimators that differ only in that parameter.
-/

namespace Verif

section
variable (key : String) (v w : PyVal)

/-- two dictionaries that agree except at `key`, where they agree or have the values `v` and `w` -/
def KwTwin (kw kw' : Kw) : Prop :=
  (∀ k, k ≠ key → kw k = kw' k) ∧ (kw key = kw' key ∨ (kw key = some v ∧ kw' key = some w))

variable {key v w}

theorem KwTwin.none_iff {kw kw' : Kw} (h : KwTwin key v w kw kw') (k : String) : kw k = none ↔ kw' k = none := by
  by_cases hk : k = key
  · subst hk
    rcases h.2 with e | ⟨e, e'⟩
    · rw [e]
    · rw [e, e']; simp
  · rw [h.1 k hk]

theorem KwTwin.refl (kw : Kw) : KwTwin key v w kw kw := ⟨fun _ _ => rfl, .inl rfl⟩

theorem KwTwin.or {a a' b b' : Kw} (h : KwTwin key v w a a') (h2 : KwTwin key v w b b') :
    KwTwin key v w (fun k => (a k).or (b k)) (fun k => (a' k).or (b' k)) := by
  refine ⟨fun k hk => by show (a k).or (b k) = (a' k).or (b' k); rw [h.1 k hk, h2.1 k hk], ?_⟩
  show (a key).or (b key) = (a' key).or (b' key) ∨ ((a key).or (b key) = some v ∧ (a' key).or (b' key) = some w)
  rcases h.2 with e | ⟨e, e'⟩
  · rw [e]
    cases a' key with
    | some x => exact .inl rfl
    | none => simpa only [Option.none_or] using h2.2
  · exact .inr ⟨by show (a key).or _ = _; rw [e]; rfl, by show (a' key).or _ = _; rw [e']; rfl⟩

theorem KwTwin.ite {a a' b b' : Kw} (c : String → Prop) [DecidablePred c] (h : KwTwin key v w a a') (h2 : KwTwin key v w b b') :
    KwTwin key v w (fun k => if c k then a k else b k) (fun k => if c k then a' k else b' k) := by
  refine ⟨fun k hk => by show (if c k then a k else b k) = _; rw [h.1 k hk, h2.1 k hk], ?_⟩
  show (if c key then a key else b key) = (if c key then a' key else b' key) ∨ _
  by_cases hc : c key
  · simp only [hc, if_true]; exact h.2
  · simp only [hc, if_false]; exact h2.2

theorem KwTwin.bound {kw kw' : Kw} (h : KwTwin key v w kw kw') (l : Layer) : KwTwin key v w (l.bound kw) (l.bound kw') :=
  KwTwin.ite (fun k => k ∈ l.names) (KwTwin.or h (KwTwin.refl fun k => l.opt.lookup k)) (KwTwin.refl fun _ => none)

theorem KwTwin.rest {kw kw' : Kw} (h : KwTwin key v w kw kw') (l : Layer) : KwTwin key v w (l.rest kw) (l.rest kw') :=
  KwTwin.ite (fun k => k ∈ l.names ∨ k ∈ l.drop) (KwTwin.refl fun _ => none) h

theorem KwTwin.forward {kw kw' : Kw} (h : KwTwin key v w kw kw') (l : Layer) :
    KwTwin key v w (l.forward kw) (l.forward kw') := by
  refine KwTwin.ite (fun k => k ∈ l.send) (h.bound l) ?_
  have := KwTwin.or (KwTwin.refl (key := key) (v := v) (w := w) fun k => l.fixed.lookup k) (h.rest l)
  refine ⟨fun k hk => ?_, ?_⟩
  · have := this.1 k hk
    revert this
    dsimp only
    cases l.fixed.lookup k <;> exact id
  · have := this.2
    revert this
    dsimp only
    cases l.fixed.lookup key <;> exact id

/-- two results of binding: the same error, or two twins -/
def TwinRes (r r' : Except Exc Kw) (R : Kw → Kw → Prop) : Prop :=
  (∃ e, r = .error e ∧ r' = .error e) ∨ ∃ p p', r = .ok p ∧ r' = .ok p' ∧ R p p'

theorem twin_layers (ls : List Layer) : ∀ kw kw' : Kw, KwTwin key v w kw kw' →
    TwinRes (runLayers ls kw) (runLayers ls kw') (KwTwin key v w) := by
  induction ls with
  | nil => intro kw kw' h; exact .inr ⟨_, _, rfl, rfl, KwTwin.refl _⟩
  | cons l ls ih =>
    intro kw kw' h
    have c1 : (∃ k ∈ l.req, kw k = none) ↔ ∃ k ∈ l.req, kw' k = none := by simp only [h.none_iff]
    have c2 : (l.varkw = false ∧ ∃ k, kw k ≠ none ∧ k ∉ l.names) ↔ (l.varkw = false ∧ ∃ k, kw' k ≠ none ∧ k ∉ l.names) := by
      simp only [ne_eq, h.none_iff]
    have c3 : (∃ k ∈ l.sent, l.rest kw k ≠ none) ↔ ∃ k ∈ l.sent, l.rest kw' k ≠ none := by
      simp only [ne_eq, (h.rest l).none_iff]
    have hb : (∃ e, l.bind kw = .error e ∧ l.bind kw' = .error e) ∨
        (l.bind kw = .ok (l.bound kw, l.forward kw) ∧ l.bind kw' = .ok (l.bound kw', l.forward kw')) := by
      simp only [Layer.bind]
      by_cases h1 : ∃ k ∈ l.req, kw k = none
      · rw [if_pos h1, if_pos (c1.1 h1)]; simp
      rw [if_neg h1, if_neg (fun x => h1 (c1.2 x))]
      by_cases h2 : l.varkw = false ∧ ∃ k, kw k ≠ none ∧ k ∉ l.names
      · rw [if_pos h2, if_pos (c2.1 h2)]; simp
      rw [if_neg h2, if_neg (fun x => h2 (c2.2 x))]
      by_cases h3 : ∃ k ∈ l.sent, l.rest kw k ≠ none
      · rw [if_pos h3, if_pos (c3.1 h3)]; simp
      rw [if_neg h3, if_neg (fun x => h3 (c3.2 x))]; simp
    simp only [runLayers, Bind.bind]
    rcases hb with ⟨e, e1, e2⟩ | ⟨e1, e2⟩
    · rw [e1, e2]; exact .inl ⟨e, rfl, rfl⟩
    rw [e1, e2]
    rcases ih _ _ (h.forward l) with ⟨e, e1, e2⟩ | ⟨p, p', e1, e2, hp⟩
    · refine .inl ⟨e, ?_, ?_⟩
      · simp only [Except.bind, e1]
      · simp only [Except.bind, e2]
    · refine .inr ⟨_, _, ?_, ?_, hp.or (h.bound l)⟩
      · simp only [Except.bind, e1]; rfl
      · simp only [Except.bind, e2]; rfl

/-- the two calls that set `key` to `v` and to `w` -/
theorem twin_ctor (b0 : PyVal) {D : Type} (cls : EstClass) (data : List D) (cond : CondKw D) (kw : Kw) (hk : key ≠ "cond") :
    TwinRes (ctorParams b0 { cls := cls, data := data, cond := cond, kw := kw.set key v })
      (ctorParams b0 { cls := cls, data := data, cond := cond, kw := kw.set key w }) (KwTwin key v w) := by
  have ht : KwTwin key v w (callKw { cls := cls, data := data, cond := cond, kw := kw.set key v })
      (callKw { cls := cls, data := data, cond := cond, kw := kw.set key w }) := by
    refine ⟨fun k hk' => ?_, .inr ⟨?_, ?_⟩⟩
    · simp only [callKw, kw_set_ne kw _ hk']
    · simp only [callKw, if_neg hk, kw_set_self]
    · simp only [callKw, if_neg hk, kw_set_self]
  simp only [ctorParams]
  by_cases hn : (cls.kind = .te ∨ cls.kind = .cte) ∧ data.length ≠ 2
  · rw [if_pos hn, if_pos hn]; exact .inl ⟨_, rfl, rfl⟩
  rw [if_neg hn, if_neg hn]
  rcases twin_layers (ctorLayers b0 cls cond.isVal) _ _ ht with ⟨e, e1, e2⟩ | ⟨p, p', e1, e2, hp⟩
  · refine .inl ⟨e, ?_, ?_⟩
    · simp only [Bind.bind, Except.bind, e1]
    · simp only [Bind.bind, Except.bind, e2]
  · simp only [Bind.bind, Except.bind, e1, e2]
    split_ifs
    · exact .inl ⟨_, rfl, rfl⟩
    · exact .inr ⟨_, _, rfl, rfl, hp⟩

end

/-! ## The estimators -/

theorem opt_resc_bind {τ β γ : Type} {ψ : β → γ} (a : Option τ) {f : τ → Option γ} {g : τ → Option β}
    (h : ∀ x, f x = (g x).map ψ) : (a >>= f) = (a >>= g).map ψ := by
  cases a with
  | none => rfl
  | some x => exact h x

theorem opt_resc_bind' {τ β γ : Type} {ψ : β → γ} {a a' : Option τ} {f : τ → Option γ} {g : τ → Option β} (ha : a = a')
    (h : ∀ x, f x = (g x).map ψ) : (a >>= f) = (a' >>= g).map ψ := by
  rw [ha]; exact opt_resc_bind _ h

theorem opt_resc_some {β γ : Type} {ψ : β → γ} {x : γ} {y : β} (h : x = ψ y) : some x = (some y).map ψ := by
  rw [h]; rfl

/-- ordinal conditional mutual information and transfer entropies rescale for every valid base -/
theorem resc_ordinal_other (q : Argsort ℝ) (b : Base) (hv : b.Valid) :
    (∀ data cond p offset, OnlyRescales (ordCMI q data cond p offset) b) ∧
    (∀ source dest p propTime offset rnd, OnlyRescales (fun b => ordTE q source dest p propTime offset b rnd) b) ∧
    (∀ source dest cond p propTime offset, OnlyRescales (ordCTE q source dest cond p propTime offset) b) := by
  refine ⟨fun data cond p offset => ?_, fun source dest p propTime offset rnd => ?_,
    fun source dest cond p propTime offset => ?_⟩
  · refine resc_bind _ fun s => ?_
    simp only [ordCMICalculate]
    split_ifs
    · exact resc_zero _
    · exact resc_cmiNdInt hv (resc_log hv) (Or.inl ⟨rfl, rfl⟩) _ _
  · exact resc_bind _ fun _ => resc_bind _ fun _ => resc_bind _ fun _ => resc_bind _ fun _ => resc_bind _ fun _ =>
      resc_combinedTE hv (Or.inl ⟨rfl, rfl⟩) _
  · exact resc_bind _ fun _ => resc_bind _ fun _ => resc_bind _ fun _ => resc_bind _ fun _ => resc_bind _ fun _ => resc_bind _ fun _ =>
      resc_combinedTE hv (Or.inl ⟨rfl, rfl⟩) _

section
variable (W : World) (e : Est) (p' : Kw) (b : Base)

/-- the estimator `e` computes in nats, and `p'` differs from its parameters only in the base, which is `b` -/
structure BaseTwin : Prop where
  nats : e.get "base" PyVal.toBase = some .e
  base : (p' "base").bind PyVal.toBase = some b
  same : ∀ k, k ≠ "base" → p' k = e.par k

variable {W e p' b}

theorem BaseTwin.get (h : BaseTwin e p' b) {τ : Type} {k : String} {conv : PyVal → Option τ} (hk : k ≠ "base") :
    Est.get { e with par := p' } k conv = e.get k conv := by
  simp only [Est.get, h.same k hk]

theorem BaseTwin.getBase (h : BaseTwin e p' b) : Est.get { e with par := p' } "base" PyVal.toBase = some b := h.base

theorem BaseTwin.dclass (h : BaseTwin e p' b) : Est.dclass { e with par := p' } = e.dclass := by
  simp (disch := decide) only [Est.dclass, h.get]

theorem BaseTwin.bclass (h : BaseTwin e p' b) : Est.bclass { e with par := p' } = e.bclass := by
  simp (disch := decide) only [Est.bclass, h.get]

theorem BaseTwin.kde (h : BaseTwin e p' b) : Est.kde W { e with par := p' } = e.kde W := by
  simp (disch := decide) only [Est.kde, h.get]

theorem BaseTwin.ksg (h : BaseTwin e p' b) : Est.ksg { e with par := p' } = e.ksg := by
  simp (disch := decide) only [Est.ksg, h.get]

theorem BaseTwin.ord (h : BaseTwin e p' b) : Est.ord { e with par := p' } = e.ord := by
  simp (disch := decide) only [Est.ord, h.get]

theorem BaseTwin.te (h : BaseTwin e p' b) : Est.te { e with par := p' } = e.te := by
  simp (disch := decide) only [Est.te, h.get]

theorem BaseTwin.ordTe (h : BaseTwin e p' b) : Est.ordTe { e with par := p' } = e.ordTe := by
  simp (disch := decide) only [Est.ordTe, h.get, h.te]

/-- dividing a result by `ln b` -/
noncomputable def divLn (b : Base) (r : Except Exc ℝ) : Except Exc ℝ := r.map (fun v => v / b.ln)

theorem twin_entropy (h : BaseTwin e p' b) (hb : b.Valid) (hf : e.cls.fam ≠ .tsallis) :
    Est.entropy W { e with par := p' } = (Est.entropy W e).map (divLn b) := by
  obtain ⟨⟨kind, fam⟩, data, cond, par⟩ := e
  cases fam
  case tsallis => exact absurd rfl hf
  all_goals
    simp (disch := decide) only [Est.entropy, h.getBase, h.nats, h.get, h.kde, h.ord, h.dclass, Option.bind_eq_bind, Option.bind_some, expFam]
  all_goals first
    | refine opt_resc_bind _ fun _ => opt_resc_some ?_
    | refine opt_resc_bind _ fun _ => opt_resc_bind _ fun _ => opt_resc_some ?_
    | refine opt_resc_bind _ fun _ => opt_resc_bind _ fun _ => opt_resc_bind _ fun _ => opt_resc_bind _ fun _ => opt_resc_some ?_
  all_goals first
    | exact C09_entropy _ _ b hb
    | exact (C09_kernel_entropy _ _ b hb).1
    | exact (C09_kl_entropy _ _ _ _ b hb).1
    | exact C09_ordinal_entropy _ _ _ b hb
    | exact C09_renyi _ _ _ b hb
    | exact (C09_nsb _ b hb).1 _ _

theorem twin_mi (h : BaseTwin e p' b) (hb : b.Std) (hf : e.cls.fam ≠ .tsallis) :
    Est.mi W { e with par := p' } = (Est.mi W e).map (divLn b) := by
  have hv := hb.valid
  obtain ⟨⟨kind, fam⟩, data, cond, par⟩ := e
  cases fam
  case tsallis => exact absurd rfl hf
  all_goals
    unfold Est.mi
    rw [h.getBase, h.nats]
    simp only [Option.bind_eq_bind, Option.bind_some]
    repeat' first
      | refine opt_resc_bind' (by first | exact h.get (by decide) | exact h.kde | exact h.ksg | exact h.ord | exact h.te | exact h.ordTe | exact h.bclass | rfl) fun _ => ?_
      | refine opt_resc_some ?_
      | (split_ifs <;> first | rfl | skip)
  all_goals first
    | exact C09_mi _ _ _ b hb
    | exact (C09_bias _ b hv).1 _ _
    | exact (C09_kernel_measures _ b hv).1 _ _ _
    | exact (C09_ksg_measures _ b hv).1 _ _ _ _
    | exact (C09_ordinal_measures _ b hb).1 _ _ _
    | exact (C09_renyi_measures _ _ b hv).1 _ _ _ _
    | exact (C09_nsb _ b hv).2.1 _ _ _

theorem twin_cmi (h : BaseTwin e p' b) (hv : b.Valid) (hf : e.cls.fam ≠ .tsallis) :
    Est.cmi W { e with par := p' } = (Est.cmi W e).map (divLn b) := by
  obtain ⟨⟨kind, fam⟩, data, cond, par⟩ := e
  cases fam
  case tsallis => exact absurd rfl hf
  all_goals
    unfold Est.cmi
    rw [h.getBase, h.nats]
    simp only [Option.bind_eq_bind, Option.bind_some]
    repeat' first
      | refine opt_resc_bind' (by first | exact h.get (by decide) | exact h.kde | exact h.ksg | exact h.ord | exact h.te | exact h.ordTe | exact h.bclass | rfl) fun _ => ?_
      | refine opt_resc_some ?_
      | (split_ifs <;> first | rfl | skip)
  all_goals first
    | exact (C09_cmi _ _ _ _ b hv).1
    | exact (C09_bias _ b hv).2.1 _ _ _
    | exact (C09_kernel_measures _ b hv).2.1 _ _ _ _
    | exact (C09_ksg_measures _ b hv).2.1 _ _ _ _ _ _
    | exact (resc_ordinal_other _ b hv).1 _ _ _ _
    | exact (C09_renyi_measures _ _ b hv).2.1 _ _ _ _ _ _
    | exact (C09_nsb _ b hv).2.2.1 _ _ _ _

theorem twin_te (h : BaseTwin e p' b) (hv : b.Valid) (hf : e.cls.fam ≠ .tsallis) :
    Est.teVal W { e with par := p' } = (Est.teVal W e).map (divLn b) := by
  obtain ⟨⟨kind, fam⟩, data, cond, par⟩ := e
  cases fam
  case tsallis => exact absurd rfl hf
  all_goals
    unfold Est.teVal
    rw [h.getBase, h.nats]
    simp only [Option.bind_eq_bind, Option.bind_some]
    repeat' first
      | refine opt_resc_bind' (by first | exact h.get (by decide) | exact h.kde | exact h.ksg | exact h.ord | exact h.te | exact h.ordTe | exact h.bclass | rfl) fun _ => ?_
      | refine opt_resc_some ?_
      | (split_ifs <;> first | rfl | skip)
  all_goals first
    | exact (C09_te _ _ _ _ _ _ _ b hv).1
    | exact (C09_bias _ b hv).2.2.1 _ _ _ _ _ _
    | exact (C09_kernel_measures _ b hv).2.2.1 _ _ _ _ _ _
    | exact (C09_ksg_measures _ b hv).2.2.1 _ _ _ _ _ _ _ _
    | exact (resc_ordinal_other _ b hv).2.1 _ _ _ _ _ _
    | exact (C09_renyi_measures _ _ b hv).2.2.1 _ _ _ _ _ _ _ _
    | exact (C09_nsb _ b hv).2.2.2.1 _ _ _ _ _ _ _

set_option maxHeartbeats 1000000 in
theorem twin_cte (h : BaseTwin e p' b) (hv : b.Valid) (hf : e.cls.fam ≠ .tsallis) :
    Est.cteVal W { e with par := p' } = (Est.cteVal W e).map (divLn b) := by
  obtain ⟨⟨kind, fam⟩, data, cond, par⟩ := e
  cases fam
  case tsallis => exact absurd rfl hf
  all_goals
    unfold Est.cteVal
    rw [h.getBase, h.nats]
    simp only [Option.bind_eq_bind, Option.bind_some]
    repeat' first
      | refine opt_resc_bind' (by first | exact h.get (by decide) | exact h.kde | exact h.ksg | exact h.ord | exact h.te | exact h.ordTe | exact h.bclass | rfl) fun _ => ?_
      | refine opt_resc_some ?_
      | (split_ifs <;> first | rfl | skip)
  all_goals first
    | exact C09_cte _ _ _ _ _ _ _ _ b hv
    | exact (C09_bias _ b hv).2.2.2 _ _ _ _ _ _ _
    | exact (C09_kernel_measures _ b hv).2.2.2 _ _ _ _ _ _ _
    | exact (C09_ksg_measures _ b hv).2.2.2 _ _ _ _ _ _ _ _ _ _
    | exact (resc_ordinal_other _ b hv).2.2 _ _ _ _ _ _
    | exact (C09_renyi_measures _ _ b hv).2.2.2 _ _ _ _ _ _ _ _ _ _
    | exact (C09_nsb _ b hv).2.2.2.2 _ _ _ _ _ _ _ _

/-- the order `q` of the estimator is such that the Tsallis entropy in base `b` is the one in nats divided by `r` -/
def TsallisRel (e : Est) (b : Base) (r : ℝ) : Prop :=
  ∀ q, e.get "q" PyVal.toArg = some q → ∀ args k, expEntropy tsallisVal args k q b = (expEntropy tsallisVal args k q .e).map (fun v => v / r)

theorem opt_resc_bindq {β γ : Type} {ψ : β → γ} {a a' : Option PyArg} {f : PyArg → Option γ} {g : PyArg → Option β} (ha : a = a')
    (h : ∀ x, a' = some x → f x = (g x).map ψ) : (a >>= f) = (a' >>= g).map ψ := by
  rw [ha]
  cases a' with
  | none => rfl
  | some x => exact h x rfl

theorem twin_tsallis {r : ℝ} (h : BaseTwin e p' b) (hf : e.cls.fam = .tsallis) (ht : TsallisRel e b r) :
    Est.entropy W { e with par := p' } = (Est.entropy W e).map (Except.map (fun v => v / r)) ∧
    Est.mi W { e with par := p' } = (Est.mi W e).map (Except.map (fun v => v / r)) ∧
    Est.cmi W { e with par := p' } = (Est.cmi W e).map (Except.map (fun v => v / r)) ∧
    Est.teVal W { e with par := p' } = (Est.teVal W e).map (Except.map (fun v => v / r)) ∧
    Est.cteVal W { e with par := p' } = (Est.cteVal W e).map (Except.map (fun v => v / r)) := by
  obtain ⟨⟨kind, fam⟩, data, cond, par⟩ := e
  obtain rfl : fam = .tsallis := hf
  have hr := fun k q hq => resc_exp (r := r) (b := b) (c := .e) (val := tsallisVal) (k := k) (order := q) (fun a => ht q hq a k)
  have hg := fun {τ : Type} {conv : PyVal → Option τ} (k : String) (hk : k ≠ "base") => h.get (conv := conv) hk
  refine ⟨?_, ?_, ?_, ?_, ?_⟩
  · unfold Est.entropy
    rw [h.getBase, h.nats]
    simp only [Option.bind_eq_bind, Option.bind_some]
    refine opt_resc_bind' (hg "k" (by decide)) fun k => opt_resc_bindq (hg "q" (by decide)) fun q hq => opt_resc_some ?_
    exact ht q hq _ _
  · unfold Est.mi
    rw [h.getBase, h.nats]
    simp only [Option.bind_eq_bind, Option.bind_some]
    refine opt_resc_bind' (hg _ (by decide)) fun _ => opt_resc_bind' rfl fun _ => opt_resc_bind' (hg _ (by decide)) fun _ =>
      opt_resc_bind' (hg _ (by decide)) fun k => opt_resc_bindq (hg "q" (by decide)) fun q hq =>
      opt_resc_bind' (hg _ (by decide)) fun _ => opt_resc_some ?_
    exact (hr k q hq).1 _ _ _ _
  · unfold Est.cmi
    rw [h.getBase, h.nats]
    simp only [Option.bind_eq_bind, Option.bind_some]
    refine opt_resc_bind' (hg _ (by decide)) fun _ => opt_resc_bind' rfl fun _ => opt_resc_bind' rfl fun _ =>
      opt_resc_bind' rfl fun _ => opt_resc_bind' (hg _ (by decide)) fun _ =>
      opt_resc_bind' (hg _ (by decide)) fun k => opt_resc_bindq (hg "q" (by decide)) fun q hq =>
      opt_resc_bind' (hg _ (by decide)) fun _ => opt_resc_some ?_
    exact (hr k q hq).2.1 _ _ _ _ _ _
  · unfold Est.teVal
    rw [h.getBase, h.nats]
    simp only [Option.bind_eq_bind, Option.bind_some]
    refine opt_resc_bind' (hg _ (by decide)) fun _ => opt_resc_bind' (hg _ (by decide)) fun _ => opt_resc_bind' h.te fun _ =>
      opt_resc_bind' rfl fun _ => opt_resc_bind' (hg _ (by decide)) fun k => opt_resc_bindq (hg "q" (by decide)) fun q hq =>
      opt_resc_bind' (hg _ (by decide)) fun _ => opt_resc_some ?_
    exact (hr k q hq).2.2.1 _ _ _ _ _ _ _ _
  · unfold Est.cteVal
    rw [h.getBase, h.nats]
    simp only [Option.bind_eq_bind, Option.bind_some]
    refine opt_resc_bind' (hg _ (by decide)) fun _ => opt_resc_bind' (hg _ (by decide)) fun _ => opt_resc_bind' h.te fun _ =>
      opt_resc_bind' (hg _ (by decide)) fun _ => opt_resc_bind' rfl fun _ => opt_resc_bind' rfl fun _ => opt_resc_bind' rfl fun _ =>
      opt_resc_bind' (hg _ (by decide)) fun k => opt_resc_bindq (hg "q" (by decide)) fun q hq =>
      opt_resc_bind' (hg _ (by decide)) fun _ => opt_resc_some ?_
    exact (hr k q hq).2.2.2 _ _ _ _ _ _ _ _ _ _

end

end Verif
