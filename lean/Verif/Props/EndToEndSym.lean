import Verif.Lemmas.EndToEndSym
import Verif.Props.EndToEndIdent

/-!
# C92: what the public functions do not depend on

For every discrete estimator family the results of the public functions do not change when the variables are given in another order,
the observations are given in another order or the symbols are renamed (`Spec.Rearranged`).

Concrete calls that meet the hypotheses are in `Props/EndToEndSymEx.lean`.
-/

namespace Verif

open Spec

variable {W : World} {a : PyName} {kw : Kw} {b : Base} {cond : CondKw PyData}

/-! ## Entropy -/

theorem sym_pubH {D : List Int → Prop} {V : List Int → ℝ} (P : PubH W a kw D V) {xs ys : List Int} (hx : xs ≠ []) (hy : ys ≠ [])
    (hs : SameCounts xs ys) : imEntropy W [.ints xs] a .absent kw = imEntropy W [.ints ys] a .absent kw := by
  obtain ⟨s1, s2⟩ := P.same _ _ hx hs
  by_cases hD : D xs
  · rw [(P.seq _ hx).1 hD, (P.seq _ hy).1 (s1.1 hD), s2]
  · rw [(P.seq _ hx).2 hD, (P.seq _ hy).2 (fun h' => hD (s1.2 h'))]

theorem sym_pubH_both {D : List Int → Prop} {V : List Int → ℝ} (P : PubH W a kw D V) {N : Nat} (hN : 0 < N) :
    (∀ xs ys : List Int, xs.length = N → Rearranged N [xs] [ys] →
      imEntropy W [.ints xs] a .absent kw = imEntropy W [.ints ys] a .absent kw) ∧
    (∀ cols cols' : List (List Int), cols ≠ [] → (∀ c ∈ cols, c.length = N) → Rearranged N cols cols' →
      imEntropy W [.intTup cols] a .absent kw = imEntropy W [.intTup cols'] a .absent kw) := by
  constructor
  · intro xs ys hx hr
    have I := sym_info hr (by simpa using hx)
    have hy : ys.length = N := I.lens ys (by simp)
    refine sym_pubH P (ne_nil_of_length hN hx) (ne_nil_of_length hN hy) ?_
    have e : ∀ v : List Int, v.length = N → SameCounts v (rows N [v]) := by
      intro v hv
      conv => arg 1; rw [bias_map_getD_range v hv]
      exact sameCounts_map _ _ _ fun s _ t _ => by rw [row_mem_iff]; simp
    exact (e xs hx).trans (I.joint.trans (e ys hy).symm)
  · intro cols cols' hne hl hr
    have I := sym_info hr hl
    have hne' : cols' ≠ [] := by
      intro h
      have := I.num
      rw [h] at this
      exact hne (List.length_eq_zero_iff.1 this.symm)
    rw [P.tup cols N hN hne hl, P.tup cols' N hN hne' I.lens]
    exact sym_pubH P (jointCodes_ne hN _) (jointCodes_ne hN _) ((jointCodes_same N cols).trans (I.joint.trans (jointCodes_same N cols').symm))

/-- **C92** entropy of a sequence and joint entropy of a tuple: the eight parameter-free discrete estimators. -/
theorem C92_entropy (f : Fam) (hf : f ∈ simpleFams) (h : Call W .h f a kw b) (hb : b.Std) (N : Nat) (hN : 0 < N) :
    (∀ xs ys : List Int, xs.length = N → Rearranged N [xs] [ys] →
      imEntropy W [.ints xs] a .absent kw = imEntropy W [.ints ys] a .absent kw) ∧
    (∀ cols cols' : List (List Int), cols ≠ [] → (∀ c ∈ cols, c.length = N) → Rearranged N cols cols' →
      imEntropy W [.intTup cols] a .absent kw = imEntropy W [.intTup cols'] a .absent kw) :=
  sym_pubH_both (pubH_simple f hf h hb) hN

/-- **C92** the Bayesian estimator. -/
theorem C92_entropy_bayes (al : AlphaArg) (K : Option Nat) {m : Method} (hm : (BiasClass.bayes al (K.map (fun k : Nat => PyArg.int (k : Int)))).Means m)
    (h : Call W .h .bayes a kw b) (hb : b.Valid) (h1 : (kw "alpha").bind PyVal.toAlpha = some al) (h2 : kwOr kw "K" .none = idnK K)
    (N : Nat) (hN : 0 < N) :
    (∀ xs ys : List Int, xs.length = N → Rearranged N [xs] [ys] →
      imEntropy W [.ints xs] a .absent kw = imEntropy W [.ints ys] a .absent kw) ∧
    (∀ cols cols' : List (List Int), cols ≠ [] → (∀ c ∈ cols, c.length = N) → Rearranged N cols cols' →
      imEntropy W [.intTup cols] a .absent kw = imEntropy W [.intTup cols'] a .absent kw) :=
  sym_pubH_both (pubH_bayes al K hm h hb h1 h2) hN

/-- **C92** ANSB, also when there is no finite value. -/
theorem C92_entropy_ansb (h : Call W .h .ansb a kw b) (hb : b.Valid) (hK : kwOr kw "K" .none = .none) (N : Nat) (hN : 0 < N) :
    (∀ xs ys : List Int, xs.length = N → Rearranged N [xs] [ys] →
      imEntropy W [.ints xs] a .absent kw = imEntropy W [.ints ys] a .absent kw) ∧
    (∀ cols cols' : List (List Int), cols ≠ [] → (∀ c ∈ cols, c.length = N) → Rearranged N cols cols' →
      imEntropy W [.intTup cols] a .absent kw = imEntropy W [.intTup cols'] a .absent kw) :=
  sym_pubH_both (pubH_ansb h hb hK) hN

/-- **C92** NSB, also when there is no finite value. -/
theorem C92_entropy_nsb (h : Call W .h .nsb a kw b) (hb : b.Valid) (K : Option Nat) (hK : kwOr kw "K" .none = idnK K)
    (hp : ∀ k, K = some k → 0 < k) (N : Nat) (hN : 0 < N) :
    (∀ xs ys : List Int, xs.length = N → Rearranged N [xs] [ys] →
      imEntropy W [.ints xs] a .absent kw = imEntropy W [.ints ys] a .absent kw) ∧
    (∀ cols cols' : List (List Int), cols ≠ [] → (∀ c ∈ cols, c.length = N) → Rearranged N cols cols' →
      imEntropy W [.intTup cols] a .absent kw = imEntropy W [.intTup cols'] a .absent kw) :=
  sym_pubH_both (pubH_nsb h hb K hK hp) hN

/-! ## Mutual information -/

section MI
variable {N : Nat} {cols cols' : List (List Int)}

theorem sym_mi_value (I : SameInfo N cols cols') (m : Method) :
    (cols.map m.value).sum - m.value (rows N cols) = (cols'.map m.value).sum - m.value (rows N cols') := by
  rw [I.sum m.value (fun _ _ _ h => value_congr h m), value_congr I.joint]

/-- **C92** mutual information of any number of variables: the discrete estimator. -/
theorem C92_mi (h : Call W .mi .discrete a kw b) (hb : b.Std) (hc : cond.isVal = false) (ho : kwOr kw "offset" (.int 0) = .int 0)
    (hr : Rearranged N cols cols') (hN : 0 < N) (h2 : 2 ≤ cols.length) (hl : ∀ c ∈ cols, c.length = N)
    (hov : N ^ cols.length < 2 ^ 64) : imMI W (cols.map .ints) a cond kw = imMI W (cols'.map .ints) a cond kw := by
  have I := sym_info hr hl
  rw [C82_mi h hb hc ho cols N hN h2 hl hov, C82_mi h hb hc ho cols' N hN (I.num ▸ h2) I.lens (I.num ▸ hov)]
  have e : Spec.totalCorrelation N cols = Spec.totalCorrelation N cols' := by
    unfold Spec.totalCorrelation
    rw [I.sum _ (fun _ _ _ h => idn_entropy_congr h), idn_entropy_congr I.joint]
  rw [e]
  congr 1
  classical exact if_congr (and_congr (by rw [I.num]) (sym_special I)) rfl rfl

/-- **C92** Miller–Madow. -/
theorem C92_mi_miller_madow (h : Call W .mi .millerMadow a kw b) (hb : b.Std) (hc : cond.isVal = false)
    (ho : kwOr kw "offset" (.int 0) = .int 0) (hr : Rearranged N cols cols') (hN : 0 < N) (h2 : 2 ≤ cols.length)
    (hl : ∀ c ∈ cols, c.length = N) (hov : N ^ cols.length < 2 ^ 64) :
    imMI W (cols.map .ints) a cond kw = imMI W (cols'.map .ints) a cond kw := by
  have I := sym_info hr hl
  rw [C82_mi_miller_madow h hb hc ho cols N hN h2 hl hov, C82_mi_miller_madow h hb hc ho cols' N hN (I.num ▸ h2) I.lens (I.num ▸ hov)]
  rw [I.sum _ (fun _ _ _ h => idn_mm_congr h), idn_mm_congr I.joint]
  congr 1
  classical exact if_congr (and_congr (by rw [I.num]) (sym_special I)) rfl rfl

/-- **C92** the six parameter-free bias-corrected estimators. -/
theorem C92_mi_bias {f : Fam} {m : Method} (hf : FamMethod f m) (h : Call W .mi f a kw b) (hb : b.Valid)
    (hc : cond.isVal = false) (hp : Plain kw) (hr : Rearranged N cols cols') (hN : 0 < N) (h2 : 2 ≤ cols.length)
    (hl : ∀ c ∈ cols, c.length = N) : imMI W (cols.map .ints) a cond kw = imMI W (cols'.map .ints) a cond kw := by
  have I := sym_info hr hl
  rw [C82_mi_bias hf h hb hc hp cols N hN h2 hl, C82_mi_bias hf h hb hc hp cols' N hN (I.num ▸ h2) I.lens, sym_mi_value I]

/-- **C92** the Bayesian estimator. -/
theorem C92_mi_bayes (al : AlphaArg) (K : Option PyArg) {m : Method} (hm : (BiasClass.bayes al K).Means m)
    (h : Call W .mi .bayes a kw b) (hb : b.Valid) (hc : cond.isVal = false) (hp : Plain kw)
    (h1 : (kw "alpha").bind PyVal.toAlpha = some al) (h3 : (kwOr kw "K" .none).toOptArg = some K)
    (hr : Rearranged N cols cols') (hN : 0 < N) (h2 : 2 ≤ cols.length) (hl : ∀ c ∈ cols, c.length = N) :
    imMI W (cols.map .ints) a cond kw = imMI W (cols'.map .ints) a cond kw := by
  have I := sym_info hr hl
  rw [C82_mi_bayes al K hm h hb hc hp h1 h3 cols N hN h2 hl, C82_mi_bayes al K hm h hb hc hp h1 h3 cols' N hN (I.num ▸ h2) I.lens,
    sym_mi_value I]

/-- **C92** ANSB, also when there is no finite value. -/
theorem C92_mi_ansb (h : Call W .mi .ansb a kw b) (hb : b.Valid) (hc : cond.isVal = false) (hp : Plain kw) (u : ℝ) (hu : 0 ≤ u)
    (h1 : (kwOr kw "undersampled" (.num (1 / 10))).toNum = some u)
    (hr : Rearranged N cols cols') (hN : 0 < N) (h2 : 2 ≤ cols.length) (hl : ∀ c ∈ cols, c.length = N) :
    imMI W (cols.map .ints) a cond kw = imMI W (cols'.map .ints) a cond kw := by
  have I := sym_info hr hl
  obtain ⟨p1, p2⟩ := C82_mi_ansb h hb hc hp u hu h1 cols N hN h2 hl
  obtain ⟨q1, q2⟩ := C82_mi_ansb h hb hc hp u hu h1 cols' N hN (I.num ▸ h2) I.lens
  have hd := defined_congr I.joint .ansb
  simp only [Method.Defined] at hd
  by_cases hn : (rows N cols).Nodup
  · rw [p2 hn, q2 (not_not.1 (fun h' => (hd.2 h') hn))]
  · rw [p1 hn, q1 (hd.1 hn), sym_mi_value I]

/-- **C92** NSB, also when there is no finite value. -/
theorem C92_mi_nsb (h : Call W .mi .nsb a kw b) (hb : b.Valid) (hc : cond.isVal = false) (hp : Plain kw) (K : Option Nat)
    (hK : kwOr kw "K" .none = (match K with | none => .none | some k => .int k)) (hK0 : ∀ k, K = some k → 0 < k)
    (hr : Rearranged N cols cols') (hN : 0 < N) (h2 : 2 ≤ cols.length) (hl : ∀ c ∈ cols, c.length = N) :
    imMI W (cols.map .ints) a cond kw = imMI W (cols'.map .ints) a cond kw := by
  have I := sym_info hr hl
  obtain ⟨p1, p2⟩ := C82_mi_nsb h hb hc hp K hK hK0 cols N hN h2 hl
  obtain ⟨q1, q2⟩ := C82_mi_nsb h hb hc hp K hK hK0 cols' N hN (I.num ▸ h2) I.lens
  have hd : ((∀ v ∈ cols, Nsb.Defined v K) ∧ Nsb.Defined (rows N cols) K) ↔ ((∀ v ∈ cols', Nsb.Defined v K) ∧ Nsb.Defined (rows N cols') K) :=
    and_congr (I.all (fun v => Nsb.Defined v K) (fun _ _ _ h => nsb_defined_congr h K)) (nsb_defined_congr I.joint K)
  by_cases hn : (∀ v ∈ cols, Nsb.Defined v K) ∧ Nsb.Defined (rows N cols) K
  · rw [p1 hn, q1 (hd.1 hn), I.sum (fun v => Nsb.value v K) (fun _ _ hx h => nsb_value_congr h (ne_nil_of_length hN hx) hK0),
      nsb_value_congr I.joint (sym_rows_ne hN _) hK0]
  · rw [p2 hn, q2 (fun h' => hn (hd.2 h'))]

end MI

/-! ## Conditional mutual information -/

section CMI
variable {cols cols' : List (List Int)} {z z' : List Int}

/-- both ways to ask for a conditional mutual information give the same for the two data sets -/
def CmiSame (W : World) (a : PyName) (kw : Kw) (cols : List (List Int)) (z : List Int) (cols' : List (List Int)) (z' : List Int) : Prop :=
  imCMI W (cols.map .ints) a (.val (.ints z)) kw = imCMI W (cols'.map .ints) a (.val (.ints z')) kw ∧
  imMI W (cols.map .ints) a (.val (.ints z)) kw = imMI W (cols'.map .ints) a (.val (.ints z')) kw

theorem CmiIs.sym {r : Except Exc ℝ} (h : CmiIs W (cols.map .ints) a (.ints z) kw r) (h' : CmiIs W (cols'.map .ints) a (.ints z') kw r) :
    CmiSame W a kw cols z cols' z' := ⟨h.1.trans h'.1.symm, h.2.trans h'.2.symm⟩

theorem sym_cmi_value {N : Nat} (I : SameInfoCond N cols z cols' z') (m : Method) :
    (cols.map (fun v => m.value (v.zip z))).sum - m.value ((rows N cols).zip z) - m.value z =
    (cols'.map (fun v => m.value (v.zip z'))).sum - m.value ((rows N cols').zip z') - m.value z' := by
  rw [I.sum m.value (fun _ _ _ h => value_congr h m), value_congr I.joint, value_congr I.zsame]

/-- **C82** discrete conditional mutual information of any number of variables (0 if the condition and one of the variables are
constant). -/
theorem C82_cmi_many (h : Call W .cmi .discrete a kw b) (hb : b.Valid) (ho : kwOr kw "offset" (.int 0) = .int 0)
    (hN : 0 < z.length) (h2 : 2 ≤ cols.length)
    (hl : ∀ c ∈ cols, c.length = z.length) (hov : z.length ^ cols.length < 2 ^ 64) :
    CmiIs W (cols.map .ints) a (.ints z) kw (.ok (open Classical in if IsConst z ∧ ∃ c ∈ cols, IsConst c then 0
      else (Spec.condTotalCorrelation z.length cols z + ((cols.length : ℝ) - 2) * Spec.entropy z) / b.ln)) := by
  have e := e2e_cmi_discrete h.name (by simpa using h2) h.accepted (o := some 0) (by rw [ho]; rfl) h.base (mapM_ints cols)
    (dz := .ints z) (z := z) rfl
  have e0 : discreteCMI cols (some (.arr1 z)) (some 0) b false = discreteCMI cols (some (.arr1 z)) none b false := by
    rw [discreteCMI_eq (z := z) h2 (by simpa using hl) rfl (Or.inl rfl),
      discreteCMI_eq (z := z) h2 (by simpa using hl) rfl (Or.inr rfl)]
  obtain ⟨v, ev, hv, _⟩ := C17_complete cols z hN h2 hl hov b hb
  rw [e0, ev, hv] at e
  exact e

/-- **C92** conditional mutual information of any number of variables: the discrete estimator. -/
theorem C92_cmi (h : Call W .cmi .discrete a kw b) (hb : b.Valid) (ho : kwOr kw "offset" (.int 0) = .int 0)
    (hr : RearrangedCond z.length cols z cols' z') (hN : 0 < z.length) (h2 : 2 ≤ cols.length)
    (hl : ∀ c ∈ cols, c.length = z.length) (hov : z.length ^ cols.length < 2 ^ 64) : CmiSame W a kw cols z cols' z' := by
  have I := sym_info_cond hr hl rfl
  have hz := I.zlen
  refine (C82_cmi_many h hb ho hN h2 hl hov).sym ?_
  have e := C82_cmi_many h hb ho (cols := cols') (z := z') (hz ▸ hN) (I.info.num ▸ h2) (hz ▸ I.info.lens) (by rw [hz, I.info.num]; exact hov)
  convert e using 2
  have ez := idn_entropy_congr I.zsame
  have e1 : Spec.condTotalCorrelation z.length cols z = Spec.condTotalCorrelation z'.length cols' z' := by
    unfold Spec.condTotalCorrelation Spec.condEntropy
    rw [I.sum (fun l => entropy l - entropy z) (fun _ _ _ h => by rw [idn_entropy_congr h]), idn_entropy_congr I.joint, ez, hz]
  rw [e1, ez, I.info.num]
  classical exact if_congr (and_congr (sym_const I.zsame) (sym_special I.info)) rfl rfl

theorem sym_pair_rows {v z : List Int} (hv : v.length = z.length) : SameCounts (rows z.length [v, z]) (v.zip z) :=
  (jointCodes_same _ _).symm.trans (idn_pair_same v z hv)

theorem sym_all_rows (cols : List (List Int)) (z : List Int) : SameCounts (rows z.length (cols ++ [z])) ((rows z.length cols).zip z) :=
  (jointCodes_same _ _).symm.trans (idn_all_same cols z)

theorem sym_mm_sum (hl : ∀ c ∈ cols, c.length = z.length) :
    (cols.map (fun c => millerMadow (rows z.length [c, z]))).sum - millerMadow (rows z.length (cols ++ [z])) - millerMadow z =
    (cols.map (fun c => millerMadow (c.zip z))).sum - millerMadow ((rows z.length cols).zip z) - millerMadow z := by
  rw [idn_mm_congr (sym_all_rows cols z)]
  congr 3
  exact List.map_congr_left fun c hc => idn_mm_congr (sym_pair_rows (hl c hc))

/-- **C92** Miller–Madow. -/
theorem C92_cmi_miller_madow (h : Call W .cmi .millerMadow a kw b) (hb : b.Valid) (ho : kwOr kw "offset" (.int 0) = .int 0)
    (hr : RearrangedCond z.length cols z cols' z') (hN : 0 < z.length) (h2 : 2 ≤ cols.length)
    (hl : ∀ c ∈ cols, c.length = z.length) (hov : z.length ^ cols.length < 2 ^ 64) : CmiSame W a kw cols z cols' z' := by
  have I := sym_info_cond hr hl rfl
  have hz := I.zlen
  have hl' : ∀ c ∈ cols', c.length = z'.length := hz ▸ I.info.lens
  refine (C82_cmi_miller_madow h hb ho cols z hN h2 hl hov).sym ?_
  have e := C82_cmi_miller_madow h hb ho cols' z' (hz ▸ hN) (I.info.num ▸ h2) hl' (by rw [hz, I.info.num]; exact hov)
  convert e using 2
  rw [sym_mm_sum hl, sym_mm_sum hl', I.sum millerMadow (fun _ _ _ h => idn_mm_congr h), idn_mm_congr I.joint, idn_mm_congr I.zsame, hz]
  classical exact if_congr (and_congr (sym_const I.zsame) (sym_special I.info)) rfl rfl

/-- **C92** the six parameter-free bias-corrected estimators. -/
theorem C92_cmi_bias {f : Fam} {m : Method} (hf : FamMethod f m) (h : Call W .cmi f a kw b) (hb : b.Valid) (hp : Plain kw)
    (hr : RearrangedCond z.length cols z cols' z') (hN : 0 < z.length) (h2 : 2 ≤ cols.length)
    (hl : ∀ c ∈ cols, c.length = z.length) : CmiSame W a kw cols z cols' z' := by
  have I := sym_info_cond hr hl rfl
  have hz := I.zlen
  refine (C82_cmi_bias hf h hb hp cols z hN h2 hl).sym ?_
  rw [sym_cmi_value I m]
  have e := C82_cmi_bias hf h hb hp cols' z' (hz ▸ hN) (I.info.num ▸ h2) (hz ▸ I.info.lens)
  rwa [hz] at e

/-- **C92** the Bayesian estimator. -/
theorem C92_cmi_bayes (al : AlphaArg) (K : Option PyArg) {m : Method} (hm : (BiasClass.bayes al K).Means m)
    (h : Call W .cmi .bayes a kw b) (hb : b.Valid) (hp : Plain kw)
    (h1 : (kw "alpha").bind PyVal.toAlpha = some al) (h3 : (kwOr kw "K" .none).toOptArg = some K)
    (hr : RearrangedCond z.length cols z cols' z') (hN : 0 < z.length) (h2 : 2 ≤ cols.length)
    (hl : ∀ c ∈ cols, c.length = z.length) : CmiSame W a kw cols z cols' z' := by
  have I := sym_info_cond hr hl rfl
  have hz := I.zlen
  refine (C82_cmi_bayes al K hm h hb hp h1 h3 cols z hN h2 hl).sym ?_
  rw [sym_cmi_value I m]
  have e := C82_cmi_bayes al K hm h hb hp h1 h3 cols' z' (hz ▸ hN) (I.info.num ▸ h2) (hz ▸ I.info.lens)
  rwa [hz] at e

/-- **C92** ANSB, also when there is no finite value. -/
theorem C92_cmi_ansb (h : Call W .cmi .ansb a kw b) (hb : b.Valid) (hp : Plain kw) (u : ℝ) (hu : 0 ≤ u)
    (h1 : (kwOr kw "undersampled" (.num (1 / 10))).toNum = some u)
    (hr : RearrangedCond z.length cols z cols' z') (hN : 0 < z.length) (h2 : 2 ≤ cols.length)
    (hl : ∀ c ∈ cols, c.length = z.length) : CmiSame W a kw cols z cols' z' := by
  have I := sym_info_cond hr hl rfl
  have hz := I.zlen
  obtain ⟨p1, p2⟩ := C82_cmi_ansb h hb hp u hu h1 cols z hN h2 hl
  obtain ⟨q1, q2⟩ := C82_cmi_ansb h hb hp u hu h1 cols' z' (hz ▸ hN) (I.info.num ▸ h2) (hz ▸ I.info.lens)
  rw [hz] at q1 q2
  have hd := defined_congr I.joint .ansb
  simp only [Method.Defined] at hd
  by_cases hn : ((rows z.length cols).zip z).Nodup
  · exact (p2 hn).sym (q2 (not_not.1 (fun h' => (hd.2 h') hn)))
  · have p := p1 hn
    rw [sym_cmi_value I] at p
    exact p.sym (q1 (hd.1 hn))

/-- **C92** NSB, also when there is no finite value. -/
theorem C92_cmi_nsb (h : Call W .cmi .nsb a kw b) (hb : b.Valid) (hp : Plain kw) (K : Option Nat)
    (hK : kwOr kw "K" .none = (match K with | none => .none | some k => .int k)) (hK0 : ∀ k, K = some k → 0 < k)
    (hr : RearrangedCond z.length cols z cols' z') (hN : 0 < z.length) (h2 : 2 ≤ cols.length)
    (hl : ∀ c ∈ cols, c.length = z.length) : CmiSame W a kw cols z cols' z' := by
  have I := sym_info_cond hr hl rfl
  have hz := I.zlen
  obtain ⟨p1, p2⟩ := C82_cmi_nsb h hb hp K hK hK0 cols z hN h2 hl
  obtain ⟨q1, q2⟩ := C82_cmi_nsb h hb hp K hK hK0 cols' z' (hz ▸ hN) (I.info.num ▸ h2) (hz ▸ I.info.lens)
  rw [hz] at q1 q2
  have hd : ((∀ v ∈ cols, Nsb.Defined (v.zip z) K) ∧ Nsb.Defined ((rows z.length cols).zip z) K ∧ Nsb.Defined z K) ↔
      ((∀ v ∈ cols', Nsb.Defined (v.zip z') K) ∧ Nsb.Defined ((rows z.length cols').zip z') K ∧ Nsb.Defined z' K) :=
    and_congr (I.all (fun v => Nsb.Defined v K) (fun _ _ _ h => nsb_defined_congr h K))
      (and_congr (nsb_defined_congr I.joint K) (nsb_defined_congr I.zsame K))
  by_cases hn : (∀ v ∈ cols, Nsb.Defined (v.zip z) K) ∧ Nsb.Defined ((rows z.length cols).zip z) K ∧ Nsb.Defined z K
  · have p := p1 hn
    have hne : (rows z.length cols).zip z ≠ [] := List.length_pos_iff.1 (by simpa [rows, List.length_zip] using hN)
    rw [I.sum (fun v => Nsb.value v K) (fun _ _ hx h => nsb_value_congr h (List.length_pos_iff.1 (hx ▸ hN)) hK0),
      nsb_value_congr I.joint hne hK0, nsb_value_congr I.zsame (List.length_pos_iff.1 hN) hK0] at p
    exact p.sym (q1 (hd.1 hn))
  · exact (p2 hn).sym (q2 (fun h' => hn (hd.2 h')))

end CMI

end Verif
