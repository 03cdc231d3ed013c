import Verif.Props.EndToEnd2
import Verif.Props.BiasMI2

/-!
# Lemmas: the entropy of a tuple through the public function
-/

namespace Verif

open Spec

section
variable {α β : Type} [DecidableEq α] [DecidableEq β]

theorem idn_entropy_congr {xs : List α} {ys : List β} (h : SameCounts xs ys) : entropy xs = entropy ys := by
  have := h.sum (fun n => (n : ℝ) / ys.length * Real.log ((n : ℝ) / ys.length))
  simp only [entropy, freq, h.len]
  rw [this]

theorem idn_mm_congr {xs : List α} {ys : List β} (h : SameCounts xs ys) : millerMadow xs = millerMadow ys := by
  unfold millerMadow
  rw [idn_entropy_congr h, h.card, h.len]

theorem idn_shrink_congr {xs : List α} {ys : List β} (h : SameCounts xs ys) : shrink xs = shrink ys := by
  have := h.sum (fun n => (Spec.shrinkWeight ys * (1 / (ys.toFinset.card : ℝ)) +
      (1 - Spec.shrinkWeight ys) * ((n : ℝ) / ys.length)) * Real.log (Spec.shrinkWeight ys * (1 / (ys.toFinset.card : ℝ)) +
      (1 - Spec.shrinkWeight ys) * ((n : ℝ) / ys.length)))
  simp only [shrink, shrinkProb, freq, h.len, h.card, h.shrinkWeight]
  rw [this]

end

theorem idn_formula_congr {xs ys : List Int} (h : SameCounts xs ys) (f : Fam) (hf : f ∈ simpleFams) :
    entropyFormula f xs = entropyFormula f ys := by
  simp only [simpleFams, List.mem_cons, List.not_mem_nil, or_false] at hf
  rcases hf with rfl | rfl | rfl | rfl | rfl | rfl | rfl | rfl
  · exact idn_entropy_congr h
  · exact idn_mm_congr h
  · exact value_congr h .grassberger
  · exact value_congr h .chaoShen
  · exact value_congr h .chaoWangJost
  · exact idn_shrink_congr h
  · exact value_congr h .zhang
  · exact value_congr h .bonachela

theorem idn_dclass_tup (c : DClass) (b : Base) {cols : List (List Int)} {n : Nat} (hn : 0 < n) (hne : cols ≠ [])
    (hl : ∀ c ∈ cols, c.length = n) : c.globalVal b [.tup cols] = c.globalVal b [.arr1 (jointCodes n cols)] := by
  simp only [DClass.globalVal, discreteHInit_arr1 (jointCodes_ne hn cols), discreteHInit_tup hn hne hl, bind, Except.bind]

theorem idn_nsb_tup (find : Int → Int → ℝ) (K : Option Int) (b : Base) {cols : List (List Int)} {n : Nat} (hn : 0 < n)
    (hne : cols ≠ []) (hl : ∀ c ∈ cols, c.length = n) :
    nsbEntropy find K b [.tup cols] = nsbEntropy find K b [.arr1 (jointCodes n cols)] := by
  simp only [nsbEntropy, discreteHInit_arr1 (jointCodes_ne hn cols), discreteHInit_tup hn hne hl, bind, Except.bind]

theorem idn_pair_same (v z : List Int) (hl : v.length = z.length) : SameCounts (jointCodes z.length [v, z]) (v.zip z) := by
  refine (jointCodes_same z.length [v, z]).trans ?_
  rw [zip_getD v z hl rfl]
  refine sameCounts_map _ _ _ fun s _ t _ => ?_
  rw [row_mem_iff, Prod.mk.injEq]; simp

theorem idn_all_same (cols : List (List Int)) (z : List Int) :
    SameCounts (jointCodes z.length (cols ++ [z])) ((rows z.length cols).zip z) := by
  refine (jointCodes_same z.length (cols ++ [z])).trans ?_
  rw [rows_zip_getD cols z rfl]
  refine sameCounts_map _ _ _ fun s _ t _ => ?_
  rw [row_mem_iff, Prod.mk.injEq, row_mem_iff]
  simp only [List.mem_append, List.mem_singleton]
  exact ⟨fun h => ⟨fun c hc => h c (.inl hc), h z (.inr rfl)⟩, fun h c hc => hc.elim (h.1 c) (by rintro rfl; exact h.2)⟩

theorem idn_codes_same {codes : List Int} {cols : List (List Int)} {n : Nat} (hn : codes.length = n)
    (h : ∀ s < n, ∀ t < n, (codes.getD s default = codes.getD t default ↔ ∀ c ∈ cols, c.getD s default = c.getD t default)) :
    SameCounts (jointCodes n cols) codes := by
  refine (jointCodes_same n cols).trans ?_
  rw [bias_map_getD_range codes hn]
  refine sameCounts_map _ _ _ fun s hs t ht => ?_
  rw [row_mem_iff, h s (List.mem_range.1 hs) t (List.mem_range.1 ht)]

variable {W : World} {a : PyName} {kw : Kw} {b : Base}

/-- what the public entropy function does on sequences and tuples: the value `V` where `D` holds -/
structure PubH (W : World) (a : PyName) (kw : Kw) (D : List Int → Prop) (V : List Int → ℝ) : Prop where
  seq : ∀ xs, xs ≠ [] → (D xs → imEntropy W [.ints xs] a .absent kw = .ok (V xs)) ∧
    (¬ D xs → imEntropy W [.ints xs] a .absent kw = .error .nonFinite)
  tup : ∀ cols n, 0 < n → cols ≠ [] → (∀ c ∈ cols, c.length = n) →
    imEntropy W [.intTup cols] a .absent kw = imEntropy W [.ints (jointCodes n cols)] a .absent kw
  same : ∀ xs ys, xs ≠ [] → SameCounts xs ys → (D xs ↔ D ys) ∧ V xs = V ys

/-- the entropy of a tuple is that of its row codes -/
theorem idn_tup_simple (f : Fam) (hf : f ∈ simpleFams) (h : Call W .h f a kw b) {cols : List (List Int)} {n : Nat} (hn : 0 < n)
    (hne : cols ≠ []) (hl : ∀ c ∈ cols, c.length = n) :
    imEntropy W [.intTup cols] a .absent kw = imEntropy W [.ints (jointCodes n cols)] a .absent kw := by
  have hm : [PyData.intTup cols].mapM PyData.toEInput = some [.tup cols] := rfl
  have hm' : [PyData.ints (jointCodes n cols)].mapM PyData.toEInput = some [.arr1 (jointCodes n cols)] := rfl
  simp only [simpleFams, List.mem_cons, List.not_mem_nil, or_false] at hf
  rcases hf with rfl | rfl | rfl | rfl | rfl | rfl | rfl | rfl
  · rw [(e2e_h_discrete h.name h.accepted h.base hm).1, (e2e_h_discrete h.name h.accepted h.base hm').1,
      idn_dclass_tup _ b hn hne hl]
  · rw [(e2e_h_millerMadow h.name h.accepted h.base hm).1, (e2e_h_millerMadow h.name h.accepted h.base hm').1,
      idn_dclass_tup _ b hn hne hl]
  · rw [(e2e_h_grassberger h.name h.accepted h.base hm).1, (e2e_h_grassberger h.name h.accepted h.base hm').1,
      idn_dclass_tup _ b hn hne hl]
  · rw [(e2e_h_chaoShen h.name h.accepted h.base hm).1, (e2e_h_chaoShen h.name h.accepted h.base hm').1,
      idn_dclass_tup _ b hn hne hl]
  · rw [(e2e_h_chaoWangJost h.name h.accepted h.base hm).1, (e2e_h_chaoWangJost h.name h.accepted h.base hm').1,
      idn_dclass_tup _ b hn hne hl]
  · rw [(e2e_h_shrink h.name h.accepted h.base hm).1, (e2e_h_shrink h.name h.accepted h.base hm').1,
      idn_dclass_tup _ b hn hne hl]
  · rw [(e2e_h_zhang h.name h.accepted h.base hm).1, (e2e_h_zhang h.name h.accepted h.base hm').1,
      idn_dclass_tup _ b hn hne hl]
  · rw [(e2e_h_bonachela h.name h.accepted h.base hm).1, (e2e_h_bonachela h.name h.accepted h.base hm').1,
      idn_dclass_tup _ b hn hne hl]

theorem idn_tup_bayes (h : Call W .h .bayes a kw b) {al : AlphaArg} {K : Option Nat}
    (h1 : (kw "alpha").bind PyVal.toAlpha = some al) (h2 : (kwOr kw "K" .none).toOptNat = some K)
    {cols : List (List Int)} {n : Nat} (hn : 0 < n) (hne : cols ≠ []) (hl : ∀ c ∈ cols, c.length = n) :
    imEntropy W [.intTup cols] a .absent kw = imEntropy W [.ints (jointCodes n cols)] a .absent kw := by
  rw [(e2e_h_bayes h.name h.accepted h1 h2 h.base (show [PyData.intTup cols].mapM PyData.toEInput = some [.tup cols] from rfl)).1,
    (e2e_h_bayes h.name h.accepted h1 h2 h.base (show [PyData.ints (jointCodes n cols)].mapM PyData.toEInput = some [.arr1 (jointCodes n cols)] from rfl)).1,
    idn_dclass_tup _ b hn hne hl]

theorem idn_tup_ansb (h : Call W .h .ansb a kw b) {K : Option Int} (h2 : (kwOr kw "K" .none).toOptInt = some K)
    {cols : List (List Int)} {n : Nat} (hn : 0 < n) (hne : cols ≠ []) (hl : ∀ c ∈ cols, c.length = n) :
    imEntropy W [.intTup cols] a .absent kw = imEntropy W [.ints (jointCodes n cols)] a .absent kw := by
  rw [(e2e_h_ansb h.name h.accepted h2 h.base (show [PyData.intTup cols].mapM PyData.toEInput = some [.tup cols] from rfl)).1,
    (e2e_h_ansb h.name h.accepted h2 h.base (show [PyData.ints (jointCodes n cols)].mapM PyData.toEInput = some [.arr1 (jointCodes n cols)] from rfl)).1,
    idn_dclass_tup _ b hn hne hl]

theorem idn_tup_nsb (h : Call W .h .nsb a kw b) {K : Option Int} (h2 : (kwOr kw "K" .none).toOptInt = some K)
    {cols : List (List Int)} {n : Nat} (hn : 0 < n) (hne : cols ≠ []) (hl : ∀ c ∈ cols, c.length = n) :
    imEntropy W [.intTup cols] a .absent kw = imEntropy W [.ints (jointCodes n cols)] a .absent kw := by
  rw [(e2e_h_nsb h.name h.accepted h2 h.base (show [PyData.intTup cols].mapM PyData.toEInput = some [.tup cols] from rfl)).1,
    (e2e_h_nsb h.name h.accepted h2 h.base (show [PyData.ints (jointCodes n cols)].mapM PyData.toEInput = some [.arr1 (jointCodes n cols)] from rfl)).1,
    idn_nsb_tup _ _ b hn hne hl]

theorem pubH_simple (f : Fam) (hf : f ∈ simpleFams) (h : Call W .h f a kw b) (hb : b.Std) :
    PubH W a kw (fun _ => True) (fun xs => entropyFormula f xs / b.ln) :=
  ⟨fun xs hx => ⟨fun _ => C82_entropy f hf h hb xs hx, fun hd => absurd trivial hd⟩,
    fun cols n hn hne hl => idn_tup_simple f hf h hn hne hl,
    fun xs ys _ hs => ⟨Iff.rfl, by rw [idn_formula_congr hs f hf]⟩⟩

/-- `K` of the Bayes and NSB entropies: `None` or a number of cells -/
def idnK (K : Option Nat) : PyVal := match K with | none => .none | some k => .int k

theorem idn_means_bayes {al : AlphaArg} {K : Option PyArg} {m : Method} (hm : (BiasClass.bayes al K).Means m) (xs : List Int) :
    m.Defined xs := by cases hm <;> trivial

theorem pubH_bayes (al : AlphaArg) (K : Option Nat) {m : Method} (hm : (BiasClass.bayes al (K.map (fun k : Nat => PyArg.int (k : Int)))).Means m)
    (h : Call W .h .bayes a kw b) (hb : b.Valid) (h1 : (kw "alpha").bind PyVal.toAlpha = some al) (h2 : kwOr kw "K" .none = idnK K) :
    PubH W a kw (fun _ => True) (fun xs => m.value xs / b.ln) := by
  have h2' : (kwOr kw "K" .none).toOptNat = some K := by
    rw [h2]; cases K <;> simp [idnK, PyVal.toOptNat]
  refine ⟨fun xs hx => ⟨fun _ => ?_, fun hd => absurd trivial hd⟩, fun cols n hn hne hl => idn_tup_bayes h h1 h2' hn hne hl,
    fun xs ys _ hs => ⟨Iff.rfl, by rw [value_congr hs m]⟩⟩
  rw [(e2e_h_bayes h.name h.accepted h1 h2' h.base (show [PyData.ints xs].mapM PyData.toEInput = some [.arr1 xs] from rfl)).1,
    dclass_arr1 _ b hx]
  have hG : ((BiasClass.bayes al (K.map (fun k : Nat => PyArg.int (k : Int)))).est b).globalVal (mkData xs) = .ok (m.value xs / b.ln) := by
    rcases means_est hm hb with ⟨g, _⟩ | g
    · exfalso
      obtain ⟨ls, e, _⟩ := g xs hx
      cases K <;> simp [BiasClass.est, bayesH] at e
    · exact (g xs hx).2.1 (idn_means_bayes hm xs)
  have : ((BiasClass.bayes al (K.map (fun k : Nat => PyArg.int (k : Int)))).est b) = bayesH al K b := by
    cases K <;> simp [BiasClass.est]
  rw [this] at hG
  exact hG

theorem pubH_ansb (h : Call W .h .ansb a kw b) (hb : b.Valid) (hK : kwOr kw "K" .none = .none) :
    PubH W a kw (fun xs => ¬ xs.Nodup) (fun xs => Method.ansb.value xs / b.ln) :=
  ⟨fun xs hx => ⟨(C82_ansb_entropy h hb xs hx hK).1, fun hd => (C82_ansb_entropy h hb xs hx hK).2 (not_not.1 hd)⟩,
    fun cols n hn hne hl => idn_tup_ansb h (K := none) (by rw [hK]; rfl) hn hne hl,
    fun xs ys _ hs => ⟨defined_congr hs .ansb, by rw [value_congr hs]⟩⟩

theorem pubH_nsb (h : Call W .h .nsb a kw b) (hb : b.Valid) (K : Option Nat) (hK : kwOr kw "K" .none = idnK K)
    (hp : ∀ k, K = some k → 0 < k) :
    PubH W a kw (fun xs => Nsb.Defined xs K) (fun xs => Nsb.value xs K / b.ln) := by
  exact ⟨fun xs hx => C82_nsb_entropy h hb xs hx K hK hp,
    fun cols n hn hne hl => idn_tup_nsb h (K := K.map Int.ofNat) (by rw [hK]; cases K <;> rfl) hn hne hl,
    fun xs ys hx hs => ⟨nsb_defined_congr hs K, by rw [nsb_value_congr hs hx hp]⟩⟩

end Verif
