import Verif.Model.Ctor

/-! # General facts about chains of constructors -/

namespace Verif

/-- the keyword names a chain accepts -/
def chainAcc : List Layer → List String
  | [] => []
  | l :: ls =>
    if l.varkw then l.names ++ l.drop ++ (chainAcc ls).filter (fun k => decide (k ∉ l.sent)) else l.names

def chainReq : List Layer → List String
  | [] => []
  | l :: _ => l.req

/-- the chain hands on only what the next link takes, and everything it requires -/
def chainWF : List Layer → Bool
  | [] => true
  | l :: ls =>
    (l.send.all (fun k => decide (k ∈ l.names))) && (l.sent.all (fun k => decide (k ∈ chainAcc ls)))
      && ((chainReq ls).all (fun k => decide (k ∈ l.sent)))
      && ((!ls.isEmpty) || !l.varkw) && chainWF ls

theorem lay_lookup_isSome {l : List (String × PyVal)} {k : String} (h : k ∈ l.map (fun p => p.1)) :
    l.lookup k ≠ none := by
  induction l with
  | nil => simp at h
  | cons a t ih =>
    obtain ⟨a1, a2⟩ := a
    simp only [List.map_cons, List.mem_cons] at h
    rw [List.lookup_cons]
    by_cases e : k = a1
    · simp [e]
    · have : (k == a1) = false := by simp [e]
      rw [this]
      exact ih (h.resolve_left e)

theorem lay_lookup_none {l : List (String × PyVal)} {k : String} (h : k ∉ l.map (fun p => p.1)) :
    l.lookup k = none := by
  induction l with
  | nil => rfl
  | cons a t ih =>
    obtain ⟨a1, a2⟩ := a
    simp only [List.map_cons, List.mem_cons, not_or] at h
    rw [List.lookup_cons]
    have : (k == a1) = false := by simp [h.1]
    rw [this]
    exact ih h.2

/-- a parameter of a link whose required arguments are given has a value -/
theorem lay_bound_isSome {l : Layer} {kw : Kw} (hr : ∀ k ∈ l.req, kw k ≠ none) {k : String} (hk : k ∈ l.names) :
    l.bound kw k ≠ none := by
  unfold Layer.bound
  rw [if_pos hk]
  unfold Layer.names at hk
  rcases List.mem_append.1 hk with h | h
  · have := hr k h
    cases e : kw k with
    | none => exact absurd e this
    | some v => simp
  · have := lay_lookup_isSome h
    cases e : kw k with
    | none => simpa using this
    | some v => simp

theorem lay_forward_ne_none {l : Layer} {kw : Kw} (hr : ∀ k ∈ l.req, kw k ≠ none)
    (hs : ∀ k ∈ l.send, k ∈ l.names) (k : String) :
    l.forward kw k ≠ none ↔ k ∈ l.sent ∨ l.rest kw k ≠ none := by
  unfold Layer.forward Layer.sent
  by_cases h : k ∈ l.send
  · rw [if_pos h]
    simp only [List.mem_append, h, true_or, iff_true]
    exact lay_bound_isSome hr (hs k h)
  · rw [if_neg h]
    by_cases h2 : k ∈ l.fixed.map (fun p => p.1)
    · have := lay_lookup_isSome h2
      simp only [List.mem_append, h2, or_true, true_or, iff_true]
      cases e : List.lookup k l.fixed with
      | none => exact absurd e this
      | some v => simp
    · rw [lay_lookup_none h2]
      simp only [List.mem_append, h, h2, or_self, false_or]

/-- **acceptance of a chain** -/
theorem chain_accepts (ls : List Layer) (hne : ls ≠ []) (hw : chainWF ls = true) (kw : Kw) :
    ((∃ p, runLayers ls kw = .ok p) ↔
      (∀ r ∈ chainReq ls, kw r ≠ none) ∧ ∀ k, kw k ≠ none → k ∈ chainAcc ls) ∧
    ((∃ p, runLayers ls kw = .ok p) ∨ runLayers ls kw = .error .typeError) := by
  induction ls generalizing kw with
  | nil => exact absurd rfl hne
  | cons l ls ih =>
    simp only [chainWF, Bool.and_eq_true, List.all_eq_true, decide_eq_true_eq] at hw
    obtain ⟨⟨⟨⟨hsend, hsent⟩, hreq⟩, hlast⟩, hw'⟩ := hw
    unfold runLayers Layer.bind
    by_cases c1 : ∃ k ∈ l.req, kw k = none
    · rw [if_pos c1]
      refine ⟨⟨fun ⟨p, hp⟩ => (by cases hp), fun ⟨h1, _⟩ => ?_⟩, Or.inr rfl⟩
      obtain ⟨k, hk, e⟩ := c1
      exact absurd e (h1 k hk)
    rw [if_neg c1]
    have hr : ∀ k ∈ l.req, kw k ≠ none := fun k hk e => c1 ⟨k, hk, e⟩
    by_cases c2 : l.varkw = false ∧ ∃ k, kw k ≠ none ∧ k ∉ l.names
    · rw [if_pos c2]
      refine ⟨⟨fun ⟨p, hp⟩ => (by cases hp), fun ⟨_, h2⟩ => ?_⟩, Or.inr rfl⟩
      obtain ⟨hv, k, hk, hn⟩ := c2
      have := h2 k hk
      simp only [chainAcc, hv, Bool.false_eq_true, if_false] at this
      exact absurd this hn
    rw [if_neg c2]
    by_cases c3 : ∃ k ∈ l.sent, l.rest kw k ≠ none
    · rw [if_pos c3]
      refine ⟨⟨fun ⟨p, hp⟩ => (by cases hp), fun ⟨_, h2⟩ => ?_⟩, Or.inr rfl⟩
      obtain ⟨k, hk, hn⟩ := c3
      have hkw : kw k ≠ none ∧ k ∉ l.names ∧ k ∉ l.drop := by
        unfold Layer.rest at hn
        split at hn
        · exact absurd rfl hn
        · next h => exact ⟨hn, fun a => h (Or.inl a), fun a => h (Or.inr a)⟩
      have := h2 k hkw.1
      unfold chainAcc at this
      split at this
      · simp only [List.mem_append, List.mem_filter, decide_eq_true_eq] at this
        rcases this with (h | h) | h
        · exact absurd h hkw.2.1
        · exact absurd h hkw.2.2
        · exact absurd hk h.2
      · exact absurd this hkw.2.1
    rw [if_neg c3]
    have hrest : ∀ k ∈ l.sent, l.rest kw k = none := fun k hk => by
      by_contra h; exact c3 ⟨k, hk, h⟩
    simp only [bind, Except.bind]
    -- the inner chain
    have inner : ((∃ p, runLayers ls (l.forward kw) = .ok p) ↔
        ∀ k, kw k ≠ none → k ∈ chainAcc (l :: ls)) ∧
        ((∃ p, runLayers ls (l.forward kw) = .ok p) ∨ runLayers ls (l.forward kw) = .error .typeError) := by
      by_cases hn : ls = []
      · subst hn
        have hv : l.varkw = false := by simpa using hlast
        refine ⟨⟨fun _ k hk => ?_, fun _ => ⟨_, rfl⟩⟩, Or.inl ⟨_, rfl⟩⟩
        simp only [chainAcc, hv, Bool.false_eq_true, if_false]
        by_contra h
        exact c2 ⟨hv, k, hk, h⟩
      · obtain ⟨i1, i2⟩ := ih hn hw' (l.forward kw)
        refine ⟨i1.trans ⟨fun ⟨_, h2⟩ k hk => ?_, fun h => ⟨fun r hr' => ?_, fun k hk => ?_⟩⟩, i2⟩
        · unfold chainAcc
          by_cases hv : l.varkw = true
          · rw [if_pos hv]
            simp only [List.mem_append, List.mem_filter, decide_eq_true_eq]
            by_cases hnm : k ∈ l.names
            · exact Or.inl (Or.inl hnm)
            · by_cases hdr : k ∈ l.drop
              · exact Or.inl (Or.inr hdr)
              · have hre : l.rest kw k = kw k := by
                  unfold Layer.rest; rw [if_neg (by tauto)]
                have hsn : k ∉ l.sent := fun hs => hk (by rw [← hre]; exact hrest k hs)
                exact Or.inr ⟨h2 k ((lay_forward_ne_none hr hsend k).2 (Or.inr (by rw [hre]; exact hk))), hsn⟩
          · rw [if_neg hv]
            by_contra h
            exact c2 ⟨by simpa using hv, k, hk, h⟩
        · exact (lay_forward_ne_none hr hsend r).2 (Or.inl (hreq r hr'))
        · rcases (lay_forward_ne_none hr hsend k).1 hk with h3 | h3
          · exact hsent k h3
          · have hkw : kw k ≠ none ∧ k ∉ l.names ∧ k ∉ l.drop := by
              unfold Layer.rest at h3
              split at h3
              · exact absurd rfl h3
              · next h' => exact ⟨h3, fun a => h' (Or.inl a), fun a => h' (Or.inr a)⟩
            have := h k hkw.1
            unfold chainAcc at this
            split at this
            · simp only [List.mem_append, List.mem_filter, decide_eq_true_eq] at this
              tauto
            · exact absurd this hkw.2.1
    obtain ⟨i1, i2⟩ := inner
    constructor
    · constructor
      · rintro ⟨p, hp⟩
        refine ⟨hr, i1.1 ?_⟩
        cases e : runLayers ls (l.forward kw) with
        | ok q => exact ⟨q, rfl⟩
        | error x => rw [e] at hp; cases hp
      · rintro ⟨_, h⟩
        obtain ⟨q, hq⟩ := i1.2 h
        rw [hq]
        exact ⟨_, rfl⟩
    · rcases i2 with ⟨q, hq⟩ | hq
      · rw [hq]; exact Or.inl ⟨_, rfl⟩
      · rw [hq]; exact Or.inr rfl

/-- the default of an optional keyword argument of a chain -/
def chainOpt : List Layer → String → Option PyVal
  | [], _ => none
  | l :: ls, k =>
    if k ∈ l.names then (if k ∈ l.req then none else l.opt.lookup k)
    else if l.varkw = true ∧ k ∉ l.drop ∧ k ∉ l.sent then chainOpt ls k else none

/-- inversion of a successful chain -/
theorem chain_inv {l : Layer} {ls : List Layer} {kw p : Kw} (h : runLayers (l :: ls) kw = .ok p) :
    (∀ k ∈ l.req, kw k ≠ none) ∧ (∀ k ∈ l.sent, l.rest kw k = none) ∧
      ∃ q, runLayers ls (l.forward kw) = .ok q ∧ p = fun k => (q k).or (l.bound kw k) := by
  unfold runLayers at h
  cases hb : l.bind kw with
  | error e => rw [hb] at h; cases h
  | ok b =>
    rw [hb] at h
    simp only [bind, Except.bind] at h
    unfold Layer.bind at hb
    split at hb
    · cases hb
    · next c1 =>
      split at hb
      · cases hb
      · split at hb
        · cases hb
        · next c3 =>
          cases hb
          simp only at h
          cases hi : runLayers ls (l.forward kw) with
          | error e => rw [hi] at h; cases h
          | ok q =>
            rw [hi] at h
            cases h
            refine ⟨fun k hk e => c1 ⟨k, hk, e⟩, fun k hk => ?_, q, rfl, rfl⟩
            by_contra hn
            exact c3 ⟨k, hk, hn⟩

/-- all parameter names of a chain -/
def chainNames (ls : List Layer) : List String := ls.flatMap Layer.names

/-- what a link keeps to itself (or discards) is no parameter of the links inside it, so that no default replaces it -/
def chainKeep : List Layer → Bool
  | [] => true
  | l :: ls => ((l.names ++ l.drop).all (fun k => decide (k ∈ l.send ∨ k ∉ chainNames ls))) &&
      (l.send.all (fun k => decide (k ∈ l.names))) && chainKeep ls

theorem chain_names_none (ls : List Layer) (kw p : Kw) (h : runLayers ls kw = .ok p) (k : String)
    (hk : k ∉ chainNames ls) : p k = none := by
  induction ls generalizing kw p with
  | nil => cases h; rfl
  | cons l ls ih =>
    obtain ⟨_, _, q, hq, rfl⟩ := chain_inv h
    simp only [chainNames, List.flatMap_cons, List.mem_append, not_or] at hk
    show (q k).or (l.bound kw k) = none
    rw [ih _ q hq hk.2]
    unfold Layer.bound
    rw [if_neg hk.1]; rfl

/-- a value given to a chain is the value of the parameter, if there is one -/
theorem chain_given (ls : List Layer) (hw : chainKeep ls = true) (kw p : Kw) (h : runLayers ls kw = .ok p)
    (k : String) (v : PyVal) (hk : kw k = some v) : p k = some v ∨ p k = none := by
  induction ls generalizing kw p with
  | nil => cases h; exact .inr rfl
  | cons l ls ih =>
    simp only [chainKeep, Bool.and_eq_true, List.all_eq_true, decide_eq_true_eq] at hw
    obtain ⟨⟨hkeep, hsend⟩, hw'⟩ := hw
    obtain ⟨_, hsent, q, hq, rfl⟩ := chain_inv h
    show (q k).or (l.bound kw k) = _ ∨ (q k).or (l.bound kw k) = _
    by_cases hn : k ∈ l.names
    · have hb : l.bound kw k = some v := by unfold Layer.bound; rw [if_pos hn, hk]; rfl
      rw [hb]
      rcases hkeep k (List.mem_append.2 (.inl hn)) with hs | hs
      · have hf : l.forward kw k = some v := by unfold Layer.forward; rw [if_pos hs, hb]
        rcases ih hw' _ q hq hf with e | e <;> rw [e] <;> exact .inl rfl
      · rw [chain_names_none ls _ q hq k hs]; exact .inl rfl
    · have hb : l.bound kw k = none := by unfold Layer.bound; rw [if_neg hn]
      rw [hb, Option.or_none]
      have hsn : k ∉ l.send := fun hs => hn (hsend k hs)
      by_cases hd : k ∈ l.drop
      · rcases hkeep k (List.mem_append.2 (.inr hd)) with hs | hs
        · exact absurd hs hsn
        · exact .inr (chain_names_none ls _ q hq k hs)
      · have hrest : l.rest kw k = some v := by
          unfold Layer.rest
          rw [if_neg (by tauto), hk]
        have hf : k ∉ l.fixed.map (fun p => p.1) := fun hf => by
          have := hsent k (List.mem_append.2 (Or.inr hf))
          rw [hrest] at this; cases this
        exact ih hw' _ q hq (by unfold Layer.forward; rw [if_neg hsn, lay_lookup_none hf, hrest])

/-- the outermost binding of a name is the value of the parameter -/
theorem chain_bound {l : Layer} {ls : List Layer} (hw : chainKeep (l :: ls) = true) {kw p : Kw}
    (h : runLayers (l :: ls) kw = .ok p) {k : String} {v : PyVal} (hk : l.bound kw k = some v) : p k = some v := by
  simp only [chainKeep, Bool.and_eq_true, List.all_eq_true, decide_eq_true_eq] at hw
  obtain ⟨⟨hkeep, _⟩, hw'⟩ := hw
  obtain ⟨_, _, q, hq, rfl⟩ := chain_inv h
  show (q k).or (l.bound kw k) = _
  have hn : k ∈ l.names := by
    by_contra hn
    unfold Layer.bound at hk
    rw [if_neg hn] at hk; cases hk
  rcases hkeep k (List.mem_append.2 (.inl hn)) with hs | hs
  · have hf : l.forward kw k = some v := by unfold Layer.forward; rw [if_pos hs, hk]
    rcases chain_given ls hw' _ q hq k v hf with e | e <;> rw [e]
    · rfl
    · exact hk
  · rw [chain_names_none ls _ q hq k hs]; exact hk

/-- **values of a chain**, optional arguments -/
theorem chain_values (ls : List Layer) (hw : chainKeep ls = true) (kw p : Kw) (h : runLayers ls kw = .ok p)
    (k : String) (d : PyVal) (hk : chainOpt ls k = some d) : p k = some ((kw k).getD d) := by
  induction ls generalizing kw p with
  | nil => simp [chainOpt] at hk
  | cons l ls ih =>
    have hw0 := hw
    simp only [chainKeep, Bool.and_eq_true, List.all_eq_true, decide_eq_true_eq] at hw
    obtain ⟨⟨_, hsend⟩, hw'⟩ := hw
    unfold chainOpt at hk
    by_cases hn : k ∈ l.names
    · rw [if_pos hn] at hk
      have hb : l.bound kw k = (kw k).or (l.opt.lookup k) := by unfold Layer.bound; rw [if_pos hn]
      by_cases hr' : k ∈ l.req
      · rw [if_pos hr'] at hk; cases hk
      · rw [if_neg hr'] at hk
        refine chain_bound hw0 h ?_
        rw [hb, hk]
        cases kw k <;> rfl
    · obtain ⟨hr, _, q, hq, rfl⟩ := chain_inv h
      show (q k).or (l.bound kw k) = _
      rw [if_neg hn] at hk
      have hb0 : l.bound kw k = none := by unfold Layer.bound; rw [if_neg hn]
      by_cases hc : l.varkw = true ∧ k ∉ l.drop ∧ k ∉ l.sent
      · rw [if_pos hc] at hk
        rw [hb0, Option.or_none, ih hw' _ q hq hk]
        have hsn : k ∉ l.send := fun hs => hn (hsend k hs)
        have hf : k ∉ l.fixed.map (fun p => p.1) := fun hf => hc.2.2 (List.mem_append.2 (Or.inr hf))
        have : l.forward kw k = kw k := by
          unfold Layer.forward
          rw [if_neg hsn, lay_lookup_none hf]
          unfold Layer.rest
          simp only
          rw [if_neg (by tauto)]
        rw [this]
      · rw [if_neg hc] at hk; cases hk

/-- required arguments reach their parameter -/
theorem chain_required {l : Layer} {ls : List Layer} (hw : chainKeep (l :: ls) = true) {kw p : Kw}
    (h : runLayers (l :: ls) kw = .ok p) (k : String) (hk : k ∈ l.req) : p k = kw k := by
  obtain ⟨hr, _⟩ := chain_inv h
  have hn : k ∈ l.names := List.mem_append.2 (Or.inl hk)
  have hb : l.bound kw k = (kw k).or (l.opt.lookup k) := by unfold Layer.bound; rw [if_pos hn]
  have := hr k hk
  cases e : kw k with
  | none => exact absurd e this
  | some v => exact chain_bound hw h (by rw [hb, e]; rfl)

/-- `kw` with one more entry -/
def Kw.set (kw : Kw) (k : String) (v : PyVal) : Kw := fun j => if j = k then some v else kw j

theorem kw_set_self (kw : Kw) (k : String) (v : PyVal) : kw.set k v k = some v := by simp [Kw.set]
theorem kw_set_ne (kw : Kw) {k j : String} (v : PyVal) (h : j ≠ k) : kw.set k v j = kw j := by simp [Kw.set, h]

/-- passing the default of an optional argument is like not passing it -/
theorem chain_default (ls : List Layer) (hw : chainWF ls = true) (kw : Kw) (k : String) (d : PyVal)
    (hk : chainOpt ls k = some d) (hkw : kw k = none) : runLayers ls (kw.set k d) = runLayers ls kw := by
  induction ls generalizing kw with
  | nil => simp [chainOpt] at hk
  | cons l ls ih =>
    simp only [chainWF, Bool.and_eq_true, List.all_eq_true, decide_eq_true_eq] at hw
    obtain ⟨⟨⟨⟨hsend, _⟩, _⟩, _⟩, hw'⟩ := hw
    unfold chainOpt at hk
    by_cases hn : k ∈ l.names
    · rw [if_pos hn] at hk
      by_cases hr' : k ∈ l.req
      · rw [if_pos hr'] at hk; cases hk
      rw [if_neg hr'] at hk
      have hbound : l.bound (kw.set k d) = l.bound kw := by
        funext j
        unfold Layer.bound
        by_cases hj : j = k
        · subst hj; rw [kw_set_self, hkw, hk]; rfl
        · rw [kw_set_ne _ _ hj]
      have hrest : l.rest (kw.set k d) = l.rest kw := by
        funext j
        unfold Layer.rest
        by_cases hj : j = k
        · subst hj; rw [if_pos (Or.inl hn), if_pos (Or.inl hn)]
        · rw [kw_set_ne _ _ hj]
      have hfor : l.forward (kw.set k d) = l.forward kw := by
        unfold Layer.forward; rw [hbound, hrest]
      have hb : l.bind (kw.set k d) = l.bind kw := by
        unfold Layer.bind
        rw [hbound, hrest, hfor]
        have e1 : (∃ j ∈ l.req, kw.set k d j = none) ↔ ∃ j ∈ l.req, kw j = none := by
          constructor
          · rintro ⟨j, hj, e⟩
            exact ⟨j, hj, by rwa [kw_set_ne _ _ (fun h : j = k => hr' (h ▸ hj))] at e⟩
          · rintro ⟨j, hj, e⟩
            exact ⟨j, hj, by rwa [kw_set_ne _ _ (fun h : j = k => hr' (h ▸ hj))]⟩
        have e2 : (∃ j, kw.set k d j ≠ none ∧ j ∉ l.names) ↔ ∃ j, kw j ≠ none ∧ j ∉ l.names := by
          constructor
          · rintro ⟨j, e, hj⟩
            exact ⟨j, by rwa [kw_set_ne _ _ (fun h : j = k => hj (h.symm ▸ hn))] at e, hj⟩
          · rintro ⟨j, e, hj⟩
            exact ⟨j, by rwa [kw_set_ne _ _ (fun h : j = k => hj (h.symm ▸ hn))], hj⟩
        have e2' : (l.varkw = false ∧ ∃ j, kw.set k d j ≠ none ∧ j ∉ l.names) ↔
            (l.varkw = false ∧ ∃ j, kw j ≠ none ∧ j ∉ l.names) := and_congr Iff.rfl e2
        simp only [e1]
        by_cases c : ∃ j ∈ l.req, kw j = none
        · rw [if_pos c, if_pos c]
        rw [if_neg c, if_neg c]
        by_cases c' : l.varkw = false ∧ ∃ j, kw j ≠ none ∧ j ∉ l.names
        · rw [if_pos c', if_pos (e2'.2 c')]
        · rw [if_neg c', if_neg (fun h => c' (e2'.1 h))]
      simp only [runLayers, hb]
    · rw [if_neg hn] at hk
      by_cases hc : l.varkw = true ∧ k ∉ l.drop ∧ k ∉ l.sent
      swap
      · rw [if_neg hc] at hk; cases hk
      rw [if_pos hc] at hk
      have hsn : k ∉ l.send := fun hs => hn (hsend k hs)
      have hf : k ∉ l.fixed.map (fun p => p.1) := fun hf => hc.2.2 (List.mem_append.2 (Or.inr hf))
      have hbound : l.bound (kw.set k d) = l.bound kw := by
        funext j
        unfold Layer.bound
        by_cases hj : j = k
        · subst hj; rw [if_neg hn, if_neg hn]
        · rw [kw_set_ne _ _ hj]
      have hrest : l.rest (kw.set k d) = (Kw.set (l.rest kw) k d) := by
        funext j
        by_cases hj : j = k
        · subst hj; rw [kw_set_self]; unfold Layer.rest; rw [if_neg (by tauto), kw_set_self]
        · rw [kw_set_ne _ _ hj]; unfold Layer.rest; rw [kw_set_ne _ _ hj]
      have hrk : l.forward kw k = none := by
        unfold Layer.forward
        rw [if_neg hsn, lay_lookup_none hf]
        unfold Layer.rest
        simp only
        rw [if_neg (by tauto), hkw]
      have hfor : l.forward (kw.set k d) = Kw.set (l.forward kw) k d := by
        funext j
        by_cases hj : j = k
        · subst hj
          rw [kw_set_self]
          unfold Layer.forward
          rw [if_neg hsn, lay_lookup_none hf, hrest, kw_set_self]
        · rw [kw_set_ne _ _ hj]
          unfold Layer.forward
          rw [hbound, hrest, kw_set_ne _ _ hj]
      have hreqne : ∀ j ∈ l.req, j ≠ k := fun j hj h => hn (h ▸ List.mem_append.2 (Or.inl hj))
      have e1 : (∃ j ∈ l.req, kw.set k d j = none) ↔ ∃ j ∈ l.req, kw j = none := by
        constructor
        · rintro ⟨j, hj, e⟩
          exact ⟨j, hj, by rwa [kw_set_ne _ _ (hreqne j hj)] at e⟩
        · rintro ⟨j, hj, e⟩
          exact ⟨j, hj, by rwa [kw_set_ne _ _ (hreqne j hj)]⟩
      have e3 : (∃ j ∈ l.sent, l.rest (kw.set k d) j ≠ none) ↔ ∃ j ∈ l.sent, l.rest kw j ≠ none := by
        have hne : ∀ j ∈ l.sent, j ≠ k := fun j hj h => hc.2.2 (h ▸ hj)
        rw [hrest]
        constructor
        · rintro ⟨j, hj, e⟩
          exact ⟨j, hj, by rwa [kw_set_ne _ _ (hne j hj)] at e⟩
        · rintro ⟨j, hj, e⟩
          exact ⟨j, hj, by rwa [kw_set_ne _ _ (hne j hj)]⟩
      unfold runLayers Layer.bind
      simp only [e1, e3, hc.1, Bool.true_eq_false, false_and, if_false]
      rw [hbound, hfor]
      by_cases c1 : ∃ j ∈ l.req, kw j = none
      · simp only [if_pos c1]
      rw [if_neg c1, if_neg c1]
      by_cases c3 : ∃ j ∈ l.sent, l.rest kw j ≠ none
      · simp only [if_pos c3]
      rw [if_neg c3, if_neg c3]
      simp only [bind, Except.bind]
      rw [ih hw' (l.forward kw) hk hrk]

/-- a dropped name has no effect, whatever its value -/
theorem chain_dropped (l : Layer) (ls : List Layer) (kw : Kw) (k : String) (v : PyVal) (hd : k ∈ l.drop)
    (hn : k ∉ l.names) (hv : l.varkw = true) :
    runLayers (l :: ls) (kw.set k v) = runLayers (l :: ls) kw := by
  have hbound : l.bound (kw.set k v) = l.bound kw := by
    funext j
    unfold Layer.bound
    by_cases hj : j = k
    · subst hj; rw [if_neg hn, if_neg hn]
    · rw [kw_set_ne _ _ hj]
  have hrest : l.rest (kw.set k v) = l.rest kw := by
    funext j
    unfold Layer.rest
    by_cases hj : j = k
    · subst hj; rw [if_pos (Or.inr hd), if_pos (Or.inr hd)]
    · rw [kw_set_ne _ _ hj]
  have hfor : l.forward (kw.set k v) = l.forward kw := by
    unfold Layer.forward; rw [hbound, hrest]
  have hreqne : ∀ j ∈ l.req, j ≠ k := fun j hj h => hn (h ▸ List.mem_append.2 (Or.inl hj))
  have e1 : (∃ j ∈ l.req, kw.set k v j = none) ↔ ∃ j ∈ l.req, kw j = none := by
    constructor
    · rintro ⟨j, hj, e⟩
      exact ⟨j, hj, by rwa [kw_set_ne _ _ (hreqne j hj)] at e⟩
    · rintro ⟨j, hj, e⟩
      exact ⟨j, hj, by rwa [kw_set_ne _ _ (hreqne j hj)]⟩
  unfold runLayers Layer.bind
  simp only [e1, hrest, hbound, hfor, hv, Bool.true_eq_false, false_and, if_false]

/-- a link that hands on a name the rest of the chain does not take always ends in a TypeError -/
theorem chain_rejects (l : Layer) (ls : List Layer) (hne : ls ≠ []) (hw : chainWF ls = true) (kw : Kw) (k : String)
    (hsend : ∀ j ∈ l.send, j ∈ l.names) (hk : k ∈ l.sent) (ha : k ∉ chainAcc ls) :
    runLayers (l :: ls) kw = .error .typeError := by
  unfold runLayers Layer.bind
  by_cases c1 : ∃ k ∈ l.req, kw k = none
  · rw [if_pos c1]; rfl
  rw [if_neg c1]
  by_cases c2 : l.varkw = false ∧ ∃ k, kw k ≠ none ∧ k ∉ l.names
  · rw [if_pos c2]; rfl
  rw [if_neg c2]
  by_cases c3 : ∃ k ∈ l.sent, l.rest kw k ≠ none
  · rw [if_pos c3]; rfl
  rw [if_neg c3]
  have hr : ∀ k ∈ l.req, kw k ≠ none := fun k hk e => c1 ⟨k, hk, e⟩
  obtain ⟨i1, i2⟩ := chain_accepts ls hne hw (l.forward kw)
  have : ¬ ∃ p, runLayers ls (l.forward kw) = .ok p := fun h =>
    ha ((i1.1 h).2 k ((lay_forward_ne_none hr hsend k).2 (Or.inl hk)))
  have e := i2.resolve_left this
  simp only [bind, Except.bind]
  rw [e]

end Verif
