import Verif.Props.EndToEndSymbols

/-!
# C93: the public functions on float arrays, estimators of discrete data
-/

namespace Verif

open Spec

variable {W : World} {a : PyName} {kw : Kw} {b : Base} {cond : CondKw PyData} {N : Nat} {cols : List (List Int)} {z : List Int}
  {data : List PyData} {dz : PyData} {f : Fam}

theorem famMethod_symbolic {m : Method} (h : FamMethod f m) : f.isSymbolic = true ∧ f ≠ .bayes := by cases h <;> exact ⟨rfl, by simp⟩

theorem simpleFams_symbolic (h : f ∈ simpleFams) : f.isSymbolic = true ∧ f ≠ .bayes := by
  simp only [simpleFams, List.mem_cons, List.not_mem_nil, or_false] at h
  rcases h with rfl | rfl | rfl | rfl | rfl | rfl | rfl | rfl <;> exact ⟨rfl, by simp⟩

theorem alpha_given {al : AlphaArg} (h : (kw "alpha").bind PyVal.toAlpha = some al) : kw "alpha" ≠ none := by
  intro h0; simp [h0] at h

/-! ## Entropy -/

/-- the entropy of the float array `ys`, and of the tuple of float arrays `rcols`, is that of the sequences of symbols -/
def EntropyOfSymbols (W : World) (a : PyName) (kw : Kw) (N : Nat) : Prop :=
  (∀ (v : List Int) (ys : List ℝ), v.length = N → RealSymbols v ys →
    imEntropy W.symbols [.reals ys] a .absent kw = imEntropy W [.ints v] a .absent kw) ∧
  (∀ (cols : List (List Int)) (rcols : List (List ℝ)), cols ≠ [] → (∀ c ∈ cols, c.length = N) → List.Forall₂ RealSymbols cols rcols →
    imEntropy W.symbols [.tup (rcols.map .one)] a .absent kw = imEntropy W [.intTup cols] a .absent kw)

theorem symb_entropy_both (h : Call W .h f a kw b) (hf : f.isSymbolic = true) (ha : f = .bayes → kw "alpha" ≠ none)
    (H : (∀ xs ys : List Int, xs.length = N → Rearranged N [xs] [ys] →
      imEntropy W [.ints xs] a .absent kw = imEntropy W [.ints ys] a .absent kw) ∧
    (∀ cols cols' : List (List Int), cols ≠ [] → (∀ c ∈ cols, c.length = N) → Rearranged N cols cols' →
      imEntropy W [.intTup cols] a .absent kw = imEntropy W [.intTup cols'] a .absent kw)) : EntropyOfSymbols W a kw N := by
  constructor
  · intro v ys hv hs
    obtain ⟨v', r, e⟩ := symb_coded_h h hf ha hs
    rw [e, H.1 v v' hv (.rename (.cons r .nil))]
  · intro cols rcols hne hl hs
    obtain ⟨cols', r, e⟩ := symb_coded_htup h hf ha hs
    rw [e, H.2 cols cols' hne hl (.rename r)]

/-- **C93** the entropy of float arrays: all estimators without parameters. -/
theorem C93_entropy (f : Fam) (hf : f ∈ simpleFams) (h : Call W .h f a kw b) (hb : b.Std) (N : Nat) (hN : 0 < N) : EntropyOfSymbols W a kw N :=
  symb_entropy_both h (simpleFams_symbolic hf).1 (fun e => absurd e (simpleFams_symbolic hf).2) (C92_entropy f hf h hb N hN)

/-- **C93** the Bayesian estimator. -/
theorem C93_entropy_bayes (al : AlphaArg) (K : Option Nat) {m : Method} (hm : (BiasClass.bayes al (K.map (fun k : Nat => PyArg.int (k : Int)))).Means m)
    (h : Call W .h .bayes a kw b) (hb : b.Valid) (h1 : (kw "alpha").bind PyVal.toAlpha = some al) (h2 : kwOr kw "K" .none = idnK K)
    (N : Nat) (hN : 0 < N) : EntropyOfSymbols W a kw N :=
  symb_entropy_both h rfl (fun _ => alpha_given h1) (C92_entropy_bayes al K hm h hb h1 h2 N hN)

/-- **C93** ANSB, also when there is no finite value. -/
theorem C93_entropy_ansb (h : Call W .h .ansb a kw b) (hb : b.Valid) (hK : kwOr kw "K" .none = .none) (N : Nat) (hN : 0 < N) :
    EntropyOfSymbols W a kw N := symb_entropy_both h rfl (by simp) (C92_entropy_ansb h hb hK N hN)

/-- **C93** NSB, also when there is no finite value. -/
theorem C93_entropy_nsb (h : Call W .h .nsb a kw b) (hb : b.Valid) (K : Option Nat) (hK : kwOr kw "K" .none = idnK K)
    (hp : ∀ k, K = some k → 0 < k) (N : Nat) (hN : 0 < N) : EntropyOfSymbols W a kw N :=
  symb_entropy_both h rfl (by simp) (C92_entropy_nsb h hb K hK hp N hN)

/-- **C93** in particular the discrete entropy of a float array is the Shannon entropy of its numbers, compared exactly. -/
theorem C93_entropy_value (h : Call W .h .discrete a kw b) (hb : b.Std) (ys : List ℝ) (hy : ys ≠ []) :
    imEntropy W.symbols [.reals ys] a .absent kw = .ok (open Classical in Spec.entropy ys / b.ln) := by
  obtain ⟨v, hs⟩ := C93_symbols ys
  have hs' := hs
  obtain ⟨g, hg, e⟩ := hs'
  simp only [PyData.toSeries, Option.some.injEq] at e
  have hl : v.length = ys.length := by rw [e]; simp
  rw [(C93_entropy .discrete (by simp [simpleFams]) h hb ys.length (List.length_pos_iff.2 hy)).1 v ys hl hs,
    C82_entropy .discrete (by simp [simpleFams]) h hb v (by rintro rfl; exact hy (by simpa using hl.symm))]
  have : (open Classical in Spec.entropy ys) = Spec.entropy v := by
    classical
    rw [e]
    have q := Spec.entropy_map_congr v g (id : Int → Int) (fun u hu w hw => ⟨fun x => hg u hu w hw x, fun x => by rw [show u = w from x]⟩)
    rw [List.map_id] at q
    convert q
  rw [this]; rfl

/-! ## Mutual information -/

/-- **C93** mutual information of any number of variables, some of them float arrays: discrete estimator. -/
theorem C93_mi (h : Call W .mi .discrete a kw b) (hb : b.Std) (hc : cond.isVal = false) (ho : kwOr kw "offset" (.int 0) = .int 0)
    (hs : List.Forall₂ Symbols cols data) (hx : HasReals data) (hN : 0 < N) (h2 : 2 ≤ cols.length) (hl : ∀ c ∈ cols, c.length = N)
    (hov : N ^ cols.length < 2 ^ 64) : imMI W.symbols data a cond kw = imMI W (cols.map .ints) a cond kw := by
  obtain ⟨cols', r, e⟩ := symb_coded_mi h rfl (by simp) hc (by simp) h2 hs hx
  rw [e, C92_mi h hb hc ho (.rename r) hN h2 hl hov]

/-- **C93** Miller–Madow. -/
theorem C93_mi_miller_madow (h : Call W .mi .millerMadow a kw b) (hb : b.Std) (hc : cond.isVal = false)
    (ho : kwOr kw "offset" (.int 0) = .int 0)
    (hs : List.Forall₂ Symbols cols data) (hx : HasReals data) (hN : 0 < N) (h2 : 2 ≤ cols.length) (hl : ∀ c ∈ cols, c.length = N)
    (hov : N ^ cols.length < 2 ^ 64) : imMI W.symbols data a cond kw = imMI W (cols.map .ints) a cond kw := by
  obtain ⟨cols', r, e⟩ := symb_coded_mi h rfl (by simp) hc (by simp) h2 hs hx
  rw [e, C92_mi_miller_madow h hb hc ho (.rename r) hN h2 hl hov]

/-- **C93** the six parameter-free bias-corrected estimators. -/
theorem C93_mi_bias {m : Method} (hf : FamMethod f m) (h : Call W .mi f a kw b) (hb : b.Valid)
    (hc : cond.isVal = false) (hp : Plain kw) (hs : List.Forall₂ Symbols cols data) (hx : HasReals data) (hN : 0 < N) (h2 : 2 ≤ cols.length)
    (hl : ∀ c ∈ cols, c.length = N) : imMI W.symbols data a cond kw = imMI W (cols.map .ints) a cond kw := by
  obtain ⟨cols', r, e⟩ := symb_coded_mi h (famMethod_symbolic hf).1 (fun e => absurd e (famMethod_symbolic hf).2) hc (fun _ _ => hp.normalize) h2 hs hx
  rw [e, C92_mi_bias hf h hb hc hp (.rename r) hN h2 hl]

/-- **C93** the Bayesian estimator. -/
theorem C93_mi_bayes (al : AlphaArg) (K : Option PyArg) {m : Method} (hm : (BiasClass.bayes al K).Means m)
    (h : Call W .mi .bayes a kw b) (hb : b.Valid) (hc : cond.isVal = false) (hp : Plain kw)
    (h1 : (kw "alpha").bind PyVal.toAlpha = some al) (h3 : (kwOr kw "K" .none).toOptArg = some K)
    (hs : List.Forall₂ Symbols cols data) (hx : HasReals data) (hN : 0 < N) (h2 : 2 ≤ cols.length) (hl : ∀ c ∈ cols, c.length = N) :
    imMI W.symbols data a cond kw = imMI W (cols.map .ints) a cond kw := by
  obtain ⟨cols', r, e⟩ := symb_coded_mi h rfl (fun _ => alpha_given h1) hc (fun _ _ => hp.normalize) h2 hs hx
  rw [e, C92_mi_bayes al K hm h hb hc hp h1 h3 (.rename r) hN h2 hl]

/-- **C93** ANSB, also when there is no finite value. -/
theorem C93_mi_ansb (h : Call W .mi .ansb a kw b) (hb : b.Valid) (hc : cond.isVal = false) (hp : Plain kw) (u : ℝ) (hu : 0 ≤ u)
    (h1 : (kwOr kw "undersampled" (.num (1 / 10))).toNum = some u)
    (hs : List.Forall₂ Symbols cols data) (hx : HasReals data) (hN : 0 < N) (h2 : 2 ≤ cols.length) (hl : ∀ c ∈ cols, c.length = N) :
    imMI W.symbols data a cond kw = imMI W (cols.map .ints) a cond kw := by
  obtain ⟨cols', r, e⟩ := symb_coded_mi h rfl (by simp) hc (fun _ _ => hp.normalize) h2 hs hx
  rw [e, C92_mi_ansb h hb hc hp u hu h1 (.rename r) hN h2 hl]

/-- **C93** NSB, also when there is no finite value. -/
theorem C93_mi_nsb (h : Call W .mi .nsb a kw b) (hb : b.Valid) (hc : cond.isVal = false) (hp : Plain kw) (K : Option Nat)
    (hK : kwOr kw "K" .none = (match K with | none => .none | some k => .int k)) (hK0 : ∀ k, K = some k → 0 < k)
    (hs : List.Forall₂ Symbols cols data) (hx : HasReals data) (hN : 0 < N) (h2 : 2 ≤ cols.length) (hl : ∀ c ∈ cols, c.length = N) :
    imMI W.symbols data a cond kw = imMI W (cols.map .ints) a cond kw := by
  obtain ⟨cols', r, e⟩ := symb_coded_mi h rfl (by simp) hc (fun _ _ => hp.normalize) h2 hs hx
  rw [e, C92_mi_nsb h hb hc hp K hK hK0 (.rename r) hN h2 hl]

/-! ## Conditional mutual information -/

/-- both ways to ask for the conditional mutual information give for `data` and `dz` what they give for the symbols -/
def CmiOfSymbols (W : World) (a : PyName) (kw : Kw) (data : List PyData) (dz : PyData) (cols : List (List Int)) (z : List Int) : Prop :=
  imCMI W.symbols data a (.val dz) kw = imCMI W (cols.map .ints) a (.val (.ints z)) kw ∧
  imMI W.symbols data a (.val dz) kw = imMI W (cols.map .ints) a (.val (.ints z)) kw

theorem CmiSame.of_symbols {cols' : List (List Int)} {z' : List Int} (h : CmiSame W a kw cols z cols' z')
    (e : imCMI W.symbols data a (.val dz) kw = imCMI W (cols'.map .ints) a (.val (.ints z')) kw ∧
      imMI W.symbols data a (.val dz) kw = imMI W (cols'.map .ints) a (.val (.ints z')) kw) : CmiOfSymbols W a kw data dz cols z :=
  ⟨e.1.trans h.1.symm, e.2.trans h.2.symm⟩

/-- **C93** conditional mutual information: discrete estimator. -/
theorem C93_cmi (h : Call W .cmi .discrete a kw b) (hb : b.Valid) (ho : kwOr kw "offset" (.int 0) = .int 0)
    (hs : List.Forall₂ Symbols cols data) (hz : Symbols z dz) (hx : HasReals (dz :: data)) (hN : 0 < z.length) (h2 : 2 ≤ cols.length)
    (hl : ∀ c ∈ cols, c.length = z.length) (hov : z.length ^ cols.length < 2 ^ 64) : CmiOfSymbols W a kw data dz cols z := by
  obtain ⟨cols', z', r, rz, e⟩ := symb_coded_cmi h rfl (by simp) (by simp) h2 hs hz hx
  exact (C92_cmi h hb ho (.rename r rz) hN h2 hl hov).of_symbols e

/-- **C93** Miller–Madow. -/
theorem C93_cmi_miller_madow (h : Call W .cmi .millerMadow a kw b) (hb : b.Valid) (ho : kwOr kw "offset" (.int 0) = .int 0)
    (hs : List.Forall₂ Symbols cols data) (hz : Symbols z dz) (hx : HasReals (dz :: data)) (hN : 0 < z.length) (h2 : 2 ≤ cols.length)
    (hl : ∀ c ∈ cols, c.length = z.length) (hov : z.length ^ cols.length < 2 ^ 64) : CmiOfSymbols W a kw data dz cols z := by
  obtain ⟨cols', z', r, rz, e⟩ := symb_coded_cmi h rfl (by simp) (by simp) h2 hs hz hx
  exact (C92_cmi_miller_madow h hb ho (.rename r rz) hN h2 hl hov).of_symbols e

/-- **C93** the six parameter-free bias-corrected estimators. -/
theorem C93_cmi_bias {m : Method} (hf : FamMethod f m) (h : Call W .cmi f a kw b) (hb : b.Valid) (hp : Plain kw)
    (hs : List.Forall₂ Symbols cols data) (hz : Symbols z dz) (hx : HasReals (dz :: data)) (hN : 0 < z.length) (h2 : 2 ≤ cols.length)
    (hl : ∀ c ∈ cols, c.length = z.length) : CmiOfSymbols W a kw data dz cols z := by
  obtain ⟨cols', z', r, rz, e⟩ := symb_coded_cmi h (famMethod_symbolic hf).1 (fun e => absurd e (famMethod_symbolic hf).2)
    (fun _ _ => hp.normalize) h2 hs hz hx
  exact (C92_cmi_bias hf h hb hp (.rename r rz) hN h2 hl).of_symbols e

/-- **C93** the Bayesian estimator. -/
theorem C93_cmi_bayes (al : AlphaArg) (K : Option PyArg) {m : Method} (hm : (BiasClass.bayes al K).Means m)
    (h : Call W .cmi .bayes a kw b) (hb : b.Valid) (hp : Plain kw)
    (h1 : (kw "alpha").bind PyVal.toAlpha = some al) (h3 : (kwOr kw "K" .none).toOptArg = some K)
    (hs : List.Forall₂ Symbols cols data) (hz : Symbols z dz) (hx : HasReals (dz :: data)) (hN : 0 < z.length) (h2 : 2 ≤ cols.length)
    (hl : ∀ c ∈ cols, c.length = z.length) : CmiOfSymbols W a kw data dz cols z := by
  obtain ⟨cols', z', r, rz, e⟩ := symb_coded_cmi h rfl (fun _ => alpha_given h1) (fun _ _ => hp.normalize) h2 hs hz hx
  exact (C92_cmi_bayes al K hm h hb hp h1 h3 (.rename r rz) hN h2 hl).of_symbols e

/-- **C93** ANSB, also when there is no finite value. -/
theorem C93_cmi_ansb (h : Call W .cmi .ansb a kw b) (hb : b.Valid) (hp : Plain kw) (u : ℝ) (hu : 0 ≤ u)
    (h1 : (kwOr kw "undersampled" (.num (1 / 10))).toNum = some u)
    (hs : List.Forall₂ Symbols cols data) (hz : Symbols z dz) (hx : HasReals (dz :: data)) (hN : 0 < z.length) (h2 : 2 ≤ cols.length)
    (hl : ∀ c ∈ cols, c.length = z.length) : CmiOfSymbols W a kw data dz cols z := by
  obtain ⟨cols', z', r, rz, e⟩ := symb_coded_cmi h rfl (by simp) (fun _ _ => hp.normalize) h2 hs hz hx
  exact (C92_cmi_ansb h hb hp u hu h1 (.rename r rz) hN h2 hl).of_symbols e

/-- **C93** NSB, also when there is no finite value. -/
theorem C93_cmi_nsb (h : Call W .cmi .nsb a kw b) (hb : b.Valid) (hp : Plain kw) (K : Option Nat)
    (hK : kwOr kw "K" .none = (match K with | none => .none | some k => .int k)) (hK0 : ∀ k, K = some k → 0 < k)
    (hs : List.Forall₂ Symbols cols data) (hz : Symbols z dz) (hx : HasReals (dz :: data)) (hN : 0 < z.length) (h2 : 2 ≤ cols.length)
    (hl : ∀ c ∈ cols, c.length = z.length) : CmiOfSymbols W a kw data dz cols z := by
  obtain ⟨cols', z', r, rz, e⟩ := symb_coded_cmi h rfl (by simp) (fun _ _ => hp.normalize) h2 hs hz hx
  exact (C92_cmi_nsb h hb hp K hK hK0 (.rename r rz) hN h2 hl).of_symbols e

/-! ## Transfer entropy -/

variable {x y : List Int} {dx dy : PyData} {l k s c : Nat}

/-- **C93** transfer entropy between sequences of which at least one is a float array: discrete estimator. -/
theorem C93_te (h : Call W .te .discrete a kw b) (hb : b.Valid) (hc : cond.isVal = false) (hh : History kw l k s) (hs : 0 < s)
    (hl : 0 < l) (hk : 0 < k) (hx : Symbols x dx) (hy : Symbols y dy) (hr : HasReals [dx, dy]) (hm : max k l * s < x.length)
    (hlen : x.length = y.length) (hov : y.length < 2 ^ 32) :
    imTE W.symbols [dx, dy] a cond kw = imTE W [.ints x, .ints y] a cond kw := by
  obtain ⟨x', y', rx, ry, e⟩ := symb_coded_te h rfl (by simp) hc hx hy hr
  exact e.trans (C92_te h hb hc hh hs hl hk rx ry hm hlen hov).symm

/-- **C93** Miller–Madow. -/
theorem C93_te_miller_madow (h : Call W .te .millerMadow a kw b) (hb : b.Valid) (hc : cond.isVal = false) (hh : History kw l k s) (hs : 0 < s)
    (hl : 0 < l) (hk : 0 < k) (hx : Symbols x dx) (hy : Symbols y dy) (hr : HasReals [dx, dy]) (hm : max k l * s < x.length)
    (hlen : x.length = y.length) (hov : y.length < 2 ^ 32) :
    imTE W.symbols [dx, dy] a cond kw = imTE W [.ints x, .ints y] a cond kw := by
  obtain ⟨x', y', rx, ry, e⟩ := symb_coded_te h rfl (by simp) hc hx hy hr
  exact e.trans (C92_te_miller_madow h hb hc hh hs hl hk rx ry hm hlen hov).symm

/-- **C93** the six parameter-free bias-corrected estimators. -/
theorem C93_te_bias {m : Method} (hf : FamMethod f m) (h : Call W .te f a kw b) (hb : b.Valid) (hc : cond.isVal = false)
    (hh : History kw l k s) (hs : 0 < s) (hl : 0 < l) (hk : 0 < k) (hx : Symbols x dx) (hy : Symbols y dy) (hr : HasReals [dx, dy])
    (hm : max k l * s < x.length) (hlen : x.length = y.length) :
    imTE W.symbols [dx, dy] a cond kw = imTE W [.ints x, .ints y] a cond kw := by
  obtain ⟨x', y', rx, ry, e⟩ := symb_coded_te h (famMethod_symbolic hf).1 (fun e => absurd e (famMethod_symbolic hf).2) hc hx hy hr
  exact e.trans (C92_te_bias hf h hb hc hh hs hl hk rx ry hm hlen).symm

/-- **C93** the Bayesian estimator. -/
theorem C93_te_bayes (al : AlphaArg) (K : Option PyArg) {m : Method} (hme : (BiasClass.bayes al K).Means m)
    (h : Call W .te .bayes a kw b) (hb : b.Valid) (h1 : (kw "alpha").bind PyVal.toAlpha = some al)
    (h3 : (kwOr kw "K" .none).toOptArg = some K) (hc : cond.isVal = false)
    (hh : History kw l k s) (hs : 0 < s) (hl : 0 < l) (hk : 0 < k) (hx : Symbols x dx) (hy : Symbols y dy) (hr : HasReals [dx, dy])
    (hm : max k l * s < x.length) (hlen : x.length = y.length) :
    imTE W.symbols [dx, dy] a cond kw = imTE W [.ints x, .ints y] a cond kw := by
  obtain ⟨x', y', rx, ry, e⟩ := symb_coded_te h rfl (fun _ => alpha_given h1) hc hx hy hr
  exact e.trans (C92_te_bayes al K hme h hb h1 h3 hc hh hs hl hk rx ry hm hlen).symm

/-- **C93** ANSB, also when there is no finite value. -/
theorem C93_te_ansb (h : Call W .te .ansb a kw b) (hb : b.Valid) (u : ℝ) (hu : 0 ≤ u)
    (h1 : (kwOr kw "undersampled" (.num (1 / 10))).toNum = some u) (hc : cond.isVal = false)
    (hh : History kw l k s) (hs : 0 < s) (hl : 0 < l) (hk : 0 < k) (hx : Symbols x dx) (hy : Symbols y dy) (hr : HasReals [dx, dy])
    (hm : max k l * s < x.length) (hlen : x.length = y.length) :
    imTE W.symbols [dx, dy] a cond kw = imTE W [.ints x, .ints y] a cond kw := by
  obtain ⟨x', y', rx, ry, e⟩ := symb_coded_te h rfl (by simp) hc hx hy hr
  exact e.trans (C92_te_ansb h hb u hu h1 hc hh hs hl hk rx ry hm hlen).symm

/-- **C93** NSB, also when there is no finite value. -/
theorem C93_te_nsb (h : Call W .te .nsb a kw b) (hb : b.Valid) (K : Option Nat)
    (hK : kwOr kw "K" .none = (match K with | none => .none | some k => .int k)) (hK0 : ∀ k, K = some k → 0 < k)
    (hc : cond.isVal = false)
    (hh : History kw l k s) (hs : 0 < s) (hl : 0 < l) (hk : 0 < k) (hx : Symbols x dx) (hy : Symbols y dy) (hr : HasReals [dx, dy])
    (hm : max k l * s < x.length) (hlen : x.length = y.length) :
    imTE W.symbols [dx, dy] a cond kw = imTE W [.ints x, .ints y] a cond kw := by
  obtain ⟨x', y', rx, ry, e⟩ := symb_coded_te h rfl (by simp) hc hx hy hr
  exact e.trans (C92_te_nsb h hb K hK hK0 hc hh hs hl hk rx ry hm hlen).symm

/-! ## Conditional transfer entropy -/

/-- both ways to ask for the conditional transfer entropy give for the arrays what they give for the symbols -/
def CteOfSymbols (W : World) (a : PyName) (kw : Kw) (dx dy dz : PyData) (x y z : List Int) : Prop :=
  imCTE W.symbols [dx, dy] a (.val dz) kw = imCTE W [.ints x, .ints y] a (.val (.ints z)) kw ∧
  imTE W.symbols [dx, dy] a (.val dz) kw = imTE W [.ints x, .ints y] a (.val (.ints z)) kw

theorem CteEq.of_symbols {x' y' z' : List Int} (h : CteEq W a kw x y z x' y' z')
    (e : imCTE W.symbols [dx, dy] a (.val dz) kw = imCTE W [.ints x', .ints y'] a (.val (.ints z')) kw ∧
      imTE W.symbols [dx, dy] a (.val dz) kw = imTE W [.ints x', .ints y'] a (.val (.ints z')) kw) : CteOfSymbols W a kw dx dy dz x y z :=
  ⟨e.1.trans h.1.symm, e.2.trans h.2.symm⟩

/-- **C93** conditional transfer entropy: discrete estimator. -/
theorem C93_cte (h : Call W .cte .discrete a kw b) (hb : b.Std) (hh : History kw l k s)
    (hcd : kwOr kw "cond_hist_len" (.int 1) = .int c) (hs : 0 < s) (hl : 0 < l) (hk : 0 < k) (hc : 0 < c)
    (hx : Symbols x dx) (hy : Symbols y dy) (hz : Symbols z dz) (hr : HasReals [dz, dx, dy]) (hm : max (max k l) c * s < x.length)
    (hlen : x.length = y.length) (hlen2 : z.length = y.length) (hov : y.length < 2 ^ 32) : CteOfSymbols W a kw dx dy dz x y z := by
  obtain ⟨x', y', z', rx, ry, rz, e⟩ := symb_coded_cte h rfl (by simp) hx hy hz hr
  exact (C92_cte h hb hh hcd hs hl hk hc rx ry rz hm hlen hlen2 hov).of_symbols e

/-- **C93** Miller–Madow. -/
theorem C93_cte_miller_madow (h : Call W .cte .millerMadow a kw b) (hb : b.Valid) (hh : History kw l k s)
    (hcd : kwOr kw "cond_hist_len" (.int 1) = .int c) (hs : 0 < s) (hl : 0 < l) (hk : 0 < k) (hc : 0 < c)
    (hx : Symbols x dx) (hy : Symbols y dy) (hz : Symbols z dz) (hr : HasReals [dz, dx, dy]) (hm : max (max k l) c * s < x.length)
    (hlen : x.length = y.length) (hlen2 : z.length = y.length) (hov : y.length < 2 ^ 32) : CteOfSymbols W a kw dx dy dz x y z := by
  obtain ⟨x', y', z', rx, ry, rz, e⟩ := symb_coded_cte h rfl (by simp) hx hy hz hr
  exact (C92_cte_miller_madow h hb hh hcd hs hl hk hc rx ry rz hm hlen hlen2 hov).of_symbols e

/-- **C93** the six parameter-free bias-corrected estimators. -/
theorem C93_cte_bias {m : Method} (hf : FamMethod f m) (h : Call W .cte f a kw b) (hb : b.Valid) (hh : History kw l k s)
    (hcd : kwOr kw "cond_hist_len" (.int 1) = .int c) (hs : 0 < s) (hl : 0 < l) (hk : 0 < k) (hc : 0 < c)
    (hx : Symbols x dx) (hy : Symbols y dy) (hz : Symbols z dz) (hr : HasReals [dz, dx, dy]) (hm : max (max k l) c * s < x.length)
    (hlen : x.length = y.length) (hlen2 : z.length = y.length) : CteOfSymbols W a kw dx dy dz x y z := by
  obtain ⟨x', y', z', rx, ry, rz, e⟩ := symb_coded_cte h (famMethod_symbolic hf).1 (fun e => absurd e (famMethod_symbolic hf).2) hx hy hz hr
  exact (C92_cte_bias hf h hb hh hcd hs hl hk hc rx ry rz hm hlen hlen2).of_symbols e

/-- **C93** the Bayesian estimator. -/
theorem C93_cte_bayes (al : AlphaArg) (K : Option PyArg) {m : Method} (hme : (BiasClass.bayes al K).Means m)
    (h : Call W .cte .bayes a kw b) (hb : b.Valid) (h1 : (kw "alpha").bind PyVal.toAlpha = some al)
    (h3 : (kwOr kw "K" .none).toOptArg = some K) (hh : History kw l k s)
    (hcd : kwOr kw "cond_hist_len" (.int 1) = .int c) (hs : 0 < s) (hl : 0 < l) (hk : 0 < k) (hc : 0 < c)
    (hx : Symbols x dx) (hy : Symbols y dy) (hz : Symbols z dz) (hr : HasReals [dz, dx, dy]) (hm : max (max k l) c * s < x.length)
    (hlen : x.length = y.length) (hlen2 : z.length = y.length) : CteOfSymbols W a kw dx dy dz x y z := by
  obtain ⟨x', y', z', rx, ry, rz, e⟩ := symb_coded_cte h rfl (fun _ => alpha_given h1) hx hy hz hr
  exact (C92_cte_bayes al K hme h hb h1 h3 hh hcd hs hl hk hc rx ry rz hm hlen hlen2).of_symbols e

/-- **C93** ANSB, also when there is no finite value. -/
theorem C93_cte_ansb (h : Call W .cte .ansb a kw b) (hb : b.Valid) (u : ℝ) (hu : 0 ≤ u)
    (h1 : (kwOr kw "undersampled" (.num (1 / 10))).toNum = some u) (hh : History kw l k s)
    (hcd : kwOr kw "cond_hist_len" (.int 1) = .int c) (hs : 0 < s) (hl : 0 < l) (hk : 0 < k) (hc : 0 < c)
    (hx : Symbols x dx) (hy : Symbols y dy) (hz : Symbols z dz) (hr : HasReals [dz, dx, dy]) (hm : max (max k l) c * s < x.length)
    (hlen : x.length = y.length) (hlen2 : z.length = y.length) : CteOfSymbols W a kw dx dy dz x y z := by
  obtain ⟨x', y', z', rx, ry, rz, e⟩ := symb_coded_cte h rfl (by simp) hx hy hz hr
  exact (C92_cte_ansb h hb u hu h1 hh hcd hs hl hk hc rx ry rz hm hlen hlen2).of_symbols e

/-- **C93** NSB, also when there is no finite value. -/
theorem C93_cte_nsb (h : Call W .cte .nsb a kw b) (hb : b.Valid) (K : Option Nat)
    (hK : kwOr kw "K" .none = (match K with | none => .none | some k => .int k)) (hK0 : ∀ k, K = some k → 0 < k) (hh : History kw l k s)
    (hcd : kwOr kw "cond_hist_len" (.int 1) = .int c) (hs : 0 < s) (hl : 0 < l) (hk : 0 < k) (hc : 0 < c)
    (hx : Symbols x dx) (hy : Symbols y dy) (hz : Symbols z dz) (hr : HasReals [dz, dx, dy]) (hm : max (max k l) c * s < x.length)
    (hlen : x.length = y.length) (hlen2 : z.length = y.length) : CteOfSymbols W a kw dx dy dz x y z := by
  obtain ⟨x', y', z', rx, ry, rz, e⟩ := symb_coded_cte h rfl (by simp) hx hy hz hr
  exact (C92_cte_nsb h hb K hK hK0 hh hcd hs hl hk hc rx ry rz hm hlen hlen2).of_symbols e

end Verif
