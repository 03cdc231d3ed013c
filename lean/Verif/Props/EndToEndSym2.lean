import Verif.Props.EndToEndSym
import Verif.Props.EndToEndIdent2

/-!
# C92 continued: the names of the symbols do not matter for the (conditional) transfer entropy
-/

namespace Verif

open Spec

variable {W : World} {a : PyName} {kw : Kw} {b : Base} {cond : CondKw PyData} {l k s c : Nat}

/-- the two embeddings have the same counts -/
structure EmbSame {δ ε : Type} [DecidableEq δ] [DecidableEq ε] (R : Nat) (F G : List (List Int)) (D : List δ) (F' G' : List (List Int))
    (D' : List ε) : Prop where
  fd : SameCounts (F.zip D) (F'.zip D')
  gd : SameCounts (G.zip D) (G'.zip D')
  fgd : SameCounts (F.zip (G.zip D)) (F'.zip (G'.zip D'))
  d : SameCounts D D'
  len : F.length = R ∧ G.length = R ∧ D.length = R ∧ F'.length = R ∧ G'.length = R ∧ D'.length = R

theorem sym_emb {δ ε : Type} [DecidableEq δ] [DecidableEq ε] {R : Nat} {f f' g g' : Nat → List Int} {d : Nat → δ} {d' : Nat → ε}
    (hf : ∀ i < R, ∀ j < R, (f i = f j ↔ f' i = f' j)) (hg : ∀ i < R, ∀ j < R, (g i = g j ↔ g' i = g' j))
    (hd : ∀ i < R, ∀ j < R, (d i = d j ↔ d' i = d' j)) :
    EmbSame R ((List.range R).map f) ((List.range R).map g) ((List.range R).map d) ((List.range R).map f') ((List.range R).map g')
      ((List.range R).map d') := by
  refine ⟨?_, ?_, ?_, ?_, by simp⟩
  · rw [zip_range_map, zip_range_map]
    refine sameCounts_map _ _ _ fun i hi j hj => ?_
    rw [Prod.mk.injEq, Prod.mk.injEq, hf i (List.mem_range.1 hi) j (List.mem_range.1 hj), hd i (List.mem_range.1 hi) j (List.mem_range.1 hj)]
  · rw [zip_range_map, zip_range_map]
    refine sameCounts_map _ _ _ fun i hi j hj => ?_
    rw [Prod.mk.injEq, Prod.mk.injEq, hg i (List.mem_range.1 hi) j (List.mem_range.1 hj), hd i (List.mem_range.1 hi) j (List.mem_range.1 hj)]
  · rw [zip_range_map, zip_range_map, zip_range_map, zip_range_map]
    refine sameCounts_map _ _ _ fun i hi j hj => ?_
    rw [Prod.mk.injEq, Prod.mk.injEq, Prod.mk.injEq, Prod.mk.injEq, hf i (List.mem_range.1 hi) j (List.mem_range.1 hj),
      hd i (List.mem_range.1 hi) j (List.mem_range.1 hj), hg i (List.mem_range.1 hi) j (List.mem_range.1 hj)]
  · exact sameCounts_map _ _ _ fun i hi j hj => hd i (List.mem_range.1 hi) j (List.mem_range.1 hj)

theorem sym_fut {xs ys : List Int} (hr : Relabelled xs ys) {n m s : Nat} (hn : xs.length = n) (hs : 0 < s) (hm : m * s < n) :
    ∀ i < numRows n m s, ∀ j < numRows n m s,
      ([xs.getD ((m + i) * s) default] = [xs.getD ((m + j) * s) default] ↔
       [ys.getD ((m + i) * s) default] = [ys.getD ((m + j) * s) default]) := by
  intro i hi j hj
  rw [List.cons_eq_cons, List.cons_eq_cons, renamed_getD hr hn ((lt_numRows hs hm).1 hi) ((lt_numRows hs hm).1 hj)]

theorem sym_hist {xs ys : List Int} (hr : Relabelled xs ys) {n m s h : Nat} (hn : xs.length = n) (hs : 0 < s) (hm : m * s < n) (hh : h ≤ m) :
    ∀ i < numRows n m s, ∀ j < numRows n m s,
      (histRow xs m s h i = histRow xs m s h j ↔ histRow ys m s h i = histRow ys m s h j) := by
  intro i hi j hj
  have hlt : ∀ u < numRows n m s, ∀ t < h, (m + u - h + t) * s < n := by
    intro u hu t ht
    refine lt_of_le_of_lt (Nat.mul_le_mul_right s ?_) ((lt_numRows hs hm).1 hu)
    omega
  unfold histRow
  rw [List.map_inj_left, List.map_inj_left]
  refine forall₂_congr fun t ht => ?_
  have ht := List.mem_range.1 ht
  rw [renamed_getD hr hn (hlt i hi t ht) (hlt j hj t ht)]

section congr
variable {δ ε : Type} [DecidableEq δ] [DecidableEq ε] {R : Nat} {F G F' G' : List (List Int)} {D : List δ} {D' : List ε}

theorem EmbSame.method (E : EmbSame R F G D F' G' D') (m : Method) :
    m.value (F.zip D) + m.value (G.zip D) - m.value (F.zip (G.zip D)) - m.value D =
    m.value (F'.zip D') + m.value (G'.zip D') - m.value (F'.zip (G'.zip D')) - m.value D' := by
  rw [value_congr E.fd, value_congr E.gd, value_congr E.fgd, value_congr E.d]

theorem EmbSame.mm (E : EmbSame R F G D F' G' D') :
    millerMadow (F.zip D) + millerMadow (G.zip D) - millerMadow (F.zip (G.zip D)) - millerMadow D =
    millerMadow (F'.zip D') + millerMadow (G'.zip D') - millerMadow (F'.zip (G'.zip D')) - millerMadow D' := by
  rw [idn_mm_congr E.fd, idn_mm_congr E.gd, idn_mm_congr E.fgd, idn_mm_congr E.d]

theorem EmbSame.cmi (E : EmbSame R F G D F' G' D') : Spec.cmi F G D = Spec.cmi F' G' D' := by
  obtain ⟨l1, l2, l3, l4, l5, l6⟩ := E.len
  rw [cmi_eq_entropies F G D (l1.trans l2.symm) (l2.trans l3.symm), cmi_eq_entropies F' G' D' (l4.trans l5.symm) (l5.trans l6.symm),
    idn_entropy_congr E.fd, idn_entropy_congr E.gd, idn_entropy_congr E.fgd, idn_entropy_congr E.d]

theorem EmbSame.nodup (E : EmbSame R F G D F' G' D') : (F.zip (G.zip D)).Nodup ↔ (F'.zip (G'.zip D')).Nodup := by
  have := defined_congr E.fgd .ansb
  simp only [Method.Defined] at this
  exact not_iff_not.1 this

theorem EmbSame.nsbDef (E : EmbSame R F G D F' G' D') (K : Option Nat) :
    (Nsb.Defined (F.zip D) K ∧ Nsb.Defined (G.zip D) K ∧ Nsb.Defined (F.zip (G.zip D)) K ∧ Nsb.Defined D K) ↔
    (Nsb.Defined (F'.zip D') K ∧ Nsb.Defined (G'.zip D') K ∧ Nsb.Defined (F'.zip (G'.zip D')) K ∧ Nsb.Defined D' K) := by
  rw [nsb_defined_congr E.fd, nsb_defined_congr E.gd, nsb_defined_congr E.fgd, nsb_defined_congr E.d]

theorem EmbSame.nsb (E : EmbSame R F G D F' G' D') (hR : 0 < R) {K : Option Nat} (hK : ∀ k, K = some k → 0 < k) :
    Nsb.value (F.zip D) K + Nsb.value (G.zip D) K - Nsb.value (F.zip (G.zip D)) K - Nsb.value D K =
    Nsb.value (F'.zip D') K + Nsb.value (G'.zip D') K - Nsb.value (F'.zip (G'.zip D')) K - Nsb.value D' K := by
  obtain ⟨l1, l2, l3, l4, l5, l6⟩ := E.len
  rw [nsb_value_congr E.fd (List.length_pos_iff.1 (by simp [l1, l3, hR])) hK,
    nsb_value_congr E.gd (List.length_pos_iff.1 (by simp [l2, l3, hR])) hK,
    nsb_value_congr E.fgd (List.length_pos_iff.1 (by simp [l1, l2, l3, hR])) hK,
    nsb_value_congr E.d (List.length_pos_iff.1 (by simp [l3, hR])) hK]

end congr

section TE
variable {x y x' y' : List Int}

theorem sym_te_emb (hx : Relabelled x x') (hy : Relabelled y y') (hs : 0 < s) (hm : max k l * s < x.length)
    (hlen : x.length = y.length) :
    EmbSame (numRows y.length (max k l) s) (futRows y y.length (max k l) s) (histRows x y.length (max k l) s l)
      (histRows y y.length (max k l) s k) (futRows y' y'.length (max k l) s) (histRows x' y'.length (max k l) s l)
      (histRows y' y'.length (max k l) s k) := by
  rw [renamed_length hy]
  have hm' : max k l * s < y.length := hlen ▸ hm
  exact sym_emb (sym_fut hy rfl hs hm') (sym_hist hx hlen hs hm' (le_max_right _ _)) (sym_hist hy rfl hs hm' (le_max_left _ _))

/-- the two transfer entropies, `x` → `y` and `x'` → `y'`, are the same result -/
def TeEq (W : World) (a : PyName) (cond : CondKw PyData) (kw : Kw) (x y x' y' : List Int) : Prop :=
  imTE W [.ints x, .ints y] a cond kw = imTE W [.ints x', .ints y'] a cond kw

/-- **C92** transfer entropy, discrete estimator: renaming the symbols of the source and of the destination changes nothing. -/
theorem C92_te (h : Call W .te .discrete a kw b) (hb : b.Valid) (hc : cond.isVal = false) (hh : History kw l k s) (hs : 0 < s)
    (hl : 0 < l) (hk : 0 < k) (hx : Relabelled x x') (hy : Relabelled y y') (hm : max k l * s < x.length) (hlen : x.length = y.length)
    (hov : y.length < 2 ^ 32) : TeEq W a cond kw x y x' y' := by
  unfold TeEq
  rw [C82_te h hb hc hh hs hl hk x y hm hlen hov, C82_te h hb hc hh hs hl hk x' y' (by rw [renamed_length hx]; exact hm)
    (by rw [renamed_length hx, renamed_length hy, hlen]) (by rw [renamed_length hy]; exact hov), (sym_te_emb hx hy hs hm hlen).cmi]

/-- **C92** Miller–Madow. -/
theorem C92_te_miller_madow (h : Call W .te .millerMadow a kw b) (hb : b.Valid) (hc : cond.isVal = false) (hh : History kw l k s)
    (hs : 0 < s) (hl : 0 < l) (hk : 0 < k) (hx : Relabelled x x') (hy : Relabelled y y') (hm : max k l * s < x.length)
    (hlen : x.length = y.length) (hov : y.length < 2 ^ 32) : TeEq W a cond kw x y x' y' := by
  unfold TeEq
  rw [C82_te_miller_madow h hb hc hh hs hl hk x y hm hlen hov, C82_te_miller_madow h hb hc hh hs hl hk x' y'
    (by rw [renamed_length hx]; exact hm) (by rw [renamed_length hx, renamed_length hy, hlen]) (by rw [renamed_length hy]; exact hov),
    (sym_te_emb hx hy hs hm hlen).mm]

/-- **C92** the six parameter-free bias-corrected estimators. -/
theorem C92_te_bias {f : Fam} {m : Method} (hf : FamMethod f m) (h : Call W .te f a kw b) (hb : b.Valid) (hc : cond.isVal = false)
    (hh : History kw l k s) (hs : 0 < s) (hl : 0 < l) (hk : 0 < k) (hx : Relabelled x x') (hy : Relabelled y y')
    (hm : max k l * s < x.length) (hlen : x.length = y.length) : TeEq W a cond kw x y x' y' := by
  unfold TeEq
  rw [C82_te_bias hf h hb hc hh hs hl hk x y hm hlen, C82_te_bias hf h hb hc hh hs hl hk x' y'
    (by rw [renamed_length hx]; exact hm) (by rw [renamed_length hx, renamed_length hy, hlen]), (sym_te_emb hx hy hs hm hlen).method]

/-- **C92** the Bayesian estimator. -/
theorem C92_te_bayes (al : AlphaArg) (K : Option PyArg) {m : Method} (hme : (BiasClass.bayes al K).Means m)
    (h : Call W .te .bayes a kw b) (hb : b.Valid) (h1 : (kw "alpha").bind PyVal.toAlpha = some al)
    (h3 : (kwOr kw "K" .none).toOptArg = some K) (hc : cond.isVal = false)
    (hh : History kw l k s) (hs : 0 < s) (hl : 0 < l) (hk : 0 < k) (hx : Relabelled x x') (hy : Relabelled y y')
    (hm : max k l * s < x.length) (hlen : x.length = y.length) : TeEq W a cond kw x y x' y' := by
  unfold TeEq
  rw [C82_te_bayes al K hme h hb h1 h3 hc hh hs hl hk x y hm hlen, C82_te_bayes al K hme h hb h1 h3 hc hh hs hl hk x' y'
    (by rw [renamed_length hx]; exact hm) (by rw [renamed_length hx, renamed_length hy, hlen]), (sym_te_emb hx hy hs hm hlen).method]

/-- **C92** ANSB, also when there is no finite value. -/
theorem C92_te_ansb (h : Call W .te .ansb a kw b) (hb : b.Valid) (u : ℝ) (hu : 0 ≤ u)
    (h1 : (kwOr kw "undersampled" (.num (1 / 10))).toNum = some u) (hc : cond.isVal = false)
    (hh : History kw l k s) (hs : 0 < s) (hl : 0 < l) (hk : 0 < k) (hx : Relabelled x x') (hy : Relabelled y y')
    (hm : max k l * s < x.length) (hlen : x.length = y.length) : TeEq W a cond kw x y x' y' := by
  unfold TeEq
  have E := sym_te_emb hx hy hs hm hlen (k := k) (l := l)
  obtain ⟨p1, p2⟩ := C82_te_ansb h hb u hu h1 hc hh hs hl hk x y hm hlen
  obtain ⟨q1, q2⟩ := C82_te_ansb h hb u hu h1 hc hh hs hl hk x' y' (by rw [renamed_length hx]; exact hm)
    (by rw [renamed_length hx, renamed_length hy, hlen])
  by_cases hn : ((futRows y y.length (max k l) s).zip ((histRows x y.length (max k l) s l).zip (histRows y y.length (max k l) s k))).Nodup
  · rw [p2 hn, q2 (E.nodup.1 hn)]
  · rw [p1 hn, q1 (fun h' => hn (E.nodup.2 h')), E.method]

/-- **C92** NSB, also when there is no finite value. -/
theorem C92_te_nsb (h : Call W .te .nsb a kw b) (hb : b.Valid) (K : Option Nat)
    (hK : kwOr kw "K" .none = (match K with | none => .none | some k => .int k)) (hK0 : ∀ k, K = some k → 0 < k)
    (hc : cond.isVal = false)
    (hh : History kw l k s) (hs : 0 < s) (hl : 0 < l) (hk : 0 < k) (hx : Relabelled x x') (hy : Relabelled y y')
    (hm : max k l * s < x.length) (hlen : x.length = y.length) : TeEq W a cond kw x y x' y' := by
  unfold TeEq
  have E := sym_te_emb hx hy hs hm hlen (k := k) (l := l)
  have hR := numRows_pos hs (hlen ▸ hm)
  obtain ⟨p1, p2⟩ := C82_te_nsb h hb K hK hK0 hc hh hs hl hk x y hm hlen
  obtain ⟨q1, q2⟩ := C82_te_nsb h hb K hK hK0 hc hh hs hl hk x' y' (by rw [renamed_length hx]; exact hm)
    (by rw [renamed_length hx, renamed_length hy, hlen])
  by_cases hn : Nsb.Defined ((futRows y y.length (max k l) s).zip (histRows y y.length (max k l) s k)) K ∧
    Nsb.Defined ((histRows x y.length (max k l) s l).zip (histRows y y.length (max k l) s k)) K ∧
    Nsb.Defined ((futRows y y.length (max k l) s).zip ((histRows x y.length (max k l) s l).zip (histRows y y.length (max k l) s k))) K ∧
    Nsb.Defined (histRows y y.length (max k l) s k) K
  · rw [p1 hn, q1 ((E.nsbDef K).1 hn), E.nsb hR hK0]
  · rw [p2 hn, q2 (fun h' => hn ((E.nsbDef K).2 h'))]

end TE

section CTE
variable {x y z x' y' z' : List Int}

theorem sym_cte_emb (hx : Relabelled x x') (hy : Relabelled y y') (hz : Relabelled z z') (hs : 0 < s)
    (hm : max (max k l) c * s < x.length) (hlen : x.length = y.length) (hlen2 : z.length = y.length) :
    EmbSame (numRows y.length (max (max k l) c) s) (futRows y y.length (max (max k l) c) s) (histRows x y.length (max (max k l) c) s l)
      ((histRows y y.length (max (max k l) c) s k).zip (histRows z y.length (max (max k l) c) s c))
      (futRows y' y'.length (max (max k l) c) s) (histRows x' y'.length (max (max k l) c) s l)
      ((histRows y' y'.length (max (max k l) c) s k).zip (histRows z' y'.length (max (max k l) c) s c)) := by
  rw [renamed_length hy]
  have hm' : max (max k l) c * s < y.length := hlen ▸ hm
  unfold histRows
  rw [zip_range_map, zip_range_map]
  refine sym_emb (sym_fut hy rfl hs hm') (sym_hist hx hlen hs hm' (by omega)) fun i hi j hj => ?_
  rw [Prod.mk.injEq, Prod.mk.injEq, sym_hist hy rfl hs hm' (by omega) i hi j hj, sym_hist hz hlen2 hs hm' (by omega) i hi j hj]

/-- both ways to ask for the conditional transfer entropy give the same for the two data sets -/
def CteEq (W : World) (a : PyName) (kw : Kw) (x y z x' y' z' : List Int) : Prop :=
  imCTE W [.ints x, .ints y] a (.val (.ints z)) kw = imCTE W [.ints x', .ints y'] a (.val (.ints z')) kw ∧
  imTE W [.ints x, .ints y] a (.val (.ints z)) kw = imTE W [.ints x', .ints y'] a (.val (.ints z')) kw

theorem CteIs.sym {r : Except Exc ℝ} (h : CteIs W (.ints x) (.ints y) a (.ints z) kw r) (h' : CteIs W (.ints x') (.ints y') a (.ints z') kw r) :
    CteEq W a kw x y z x' y' z' := ⟨h.1.trans h'.1.symm, h.2.trans h'.2.symm⟩

/-- **C92** conditional transfer entropy, discrete estimator. -/
theorem C92_cte (h : Call W .cte .discrete a kw b) (hb : b.Std) (hh : History kw l k s)
    (hcd : kwOr kw "cond_hist_len" (.int 1) = .int c) (hs : 0 < s) (hl : 0 < l) (hk : 0 < k) (hc : 0 < c)
    (hx : Relabelled x x') (hy : Relabelled y y') (hz : Relabelled z z') (hm : max (max k l) c * s < x.length)
    (hlen : x.length = y.length) (hlen2 : z.length = y.length) (hov : y.length < 2 ^ 32) : CteEq W a kw x y z x' y' z' := by
  have p := C82_cte h hb hh hcd hs hl hk hc x y z hm hlen hlen2 hov
  have q := C82_cte h hb hh hcd hs hl hk hc x' y' z' (by rw [renamed_length hx]; exact hm)
    (by rw [renamed_length hx, renamed_length hy, hlen]) (by rw [renamed_length hz, renamed_length hy, hlen2])
    (by rw [renamed_length hy]; exact hov)
  refine p.sym ?_
  rw [(sym_cte_emb hx hy hz hs hm hlen hlen2).cmi]
  exact q

/-- **C92** Miller–Madow. -/
theorem C92_cte_miller_madow (h : Call W .cte .millerMadow a kw b) (hb : b.Valid) (hh : History kw l k s)
    (hcd : kwOr kw "cond_hist_len" (.int 1) = .int c) (hs : 0 < s) (hl : 0 < l) (hk : 0 < k) (hc : 0 < c)
    (hx : Relabelled x x') (hy : Relabelled y y') (hz : Relabelled z z') (hm : max (max k l) c * s < x.length)
    (hlen : x.length = y.length) (hlen2 : z.length = y.length) (hov : y.length < 2 ^ 32) : CteEq W a kw x y z x' y' z' := by
  have p := C82_cte_miller_madow h hb hh hcd hs hl hk hc x y z hm hlen hlen2 hov
  have q := C82_cte_miller_madow h hb hh hcd hs hl hk hc x' y' z' (by rw [renamed_length hx]; exact hm)
    (by rw [renamed_length hx, renamed_length hy, hlen]) (by rw [renamed_length hz, renamed_length hy, hlen2])
    (by rw [renamed_length hy]; exact hov)
  refine p.sym ?_
  rw [(sym_cte_emb hx hy hz hs hm hlen hlen2).mm]
  exact q

/-- **C92** the six parameter-free bias-corrected estimators. -/
theorem C92_cte_bias {f : Fam} {m : Method} (hf : FamMethod f m) (h : Call W .cte f a kw b) (hb : b.Valid) (hh : History kw l k s)
    (hcd : kwOr kw "cond_hist_len" (.int 1) = .int c) (hs : 0 < s) (hl : 0 < l) (hk : 0 < k) (hc : 0 < c)
    (hx : Relabelled x x') (hy : Relabelled y y') (hz : Relabelled z z') (hm : max (max k l) c * s < x.length)
    (hlen : x.length = y.length) (hlen2 : z.length = y.length) : CteEq W a kw x y z x' y' z' := by
  have p := C82_cte_bias hf h hb hh hcd hs hl hk hc x y z hm hlen hlen2
  have q := C82_cte_bias hf h hb hh hcd hs hl hk hc x' y' z' (by rw [renamed_length hx]; exact hm)
    (by rw [renamed_length hx, renamed_length hy, hlen]) (by rw [renamed_length hz, renamed_length hy, hlen2])
  refine p.sym ?_
  rw [(sym_cte_emb hx hy hz hs hm hlen hlen2).method]
  exact q

/-- **C92** the Bayesian estimator. -/
theorem C92_cte_bayes (al : AlphaArg) (K : Option PyArg) {m : Method} (hme : (BiasClass.bayes al K).Means m)
    (h : Call W .cte .bayes a kw b) (hb : b.Valid) (h1 : (kw "alpha").bind PyVal.toAlpha = some al)
    (h3 : (kwOr kw "K" .none).toOptArg = some K) (hh : History kw l k s)
    (hcd : kwOr kw "cond_hist_len" (.int 1) = .int c) (hs : 0 < s) (hl : 0 < l) (hk : 0 < k) (hc : 0 < c)
    (hx : Relabelled x x') (hy : Relabelled y y') (hz : Relabelled z z') (hm : max (max k l) c * s < x.length)
    (hlen : x.length = y.length) (hlen2 : z.length = y.length) : CteEq W a kw x y z x' y' z' := by
  have p := C82_cte_bayes al K hme h hb h1 h3 hh hcd hs hl hk hc x y z hm hlen hlen2
  have q := C82_cte_bayes al K hme h hb h1 h3 hh hcd hs hl hk hc x' y' z' (by rw [renamed_length hx]; exact hm)
    (by rw [renamed_length hx, renamed_length hy, hlen]) (by rw [renamed_length hz, renamed_length hy, hlen2])
  refine p.sym ?_
  rw [(sym_cte_emb hx hy hz hs hm hlen hlen2).method]
  exact q

/-- **C92** ANSB, also when there is no finite value. -/
theorem C92_cte_ansb (h : Call W .cte .ansb a kw b) (hb : b.Valid) (u : ℝ) (hu : 0 ≤ u)
    (h1 : (kwOr kw "undersampled" (.num (1 / 10))).toNum = some u) (hh : History kw l k s)
    (hcd : kwOr kw "cond_hist_len" (.int 1) = .int c) (hs : 0 < s) (hl : 0 < l) (hk : 0 < k) (hc : 0 < c)
    (hx : Relabelled x x') (hy : Relabelled y y') (hz : Relabelled z z') (hm : max (max k l) c * s < x.length)
    (hlen : x.length = y.length) (hlen2 : z.length = y.length) : CteEq W a kw x y z x' y' z' := by
  have E := sym_cte_emb hx hy hz hs hm hlen hlen2 (k := k) (l := l) (c := c)
  obtain ⟨p1, p2⟩ := C82_cte_ansb h hb u hu h1 hh hcd hs hl hk hc x y z hm hlen hlen2
  obtain ⟨q1, q2⟩ := C82_cte_ansb h hb u hu h1 hh hcd hs hl hk hc x' y' z' (by rw [renamed_length hx]; exact hm)
    (by rw [renamed_length hx, renamed_length hy, hlen]) (by rw [renamed_length hz, renamed_length hy, hlen2])
  by_cases hn : ((futRows y y.length (max (max k l) c) s).zip ((histRows x y.length (max (max k l) c) s l).zip
      ((histRows y y.length (max (max k l) c) s k).zip (histRows z y.length (max (max k l) c) s c)))).Nodup
  · exact (p2 hn).sym (q2 (E.nodup.1 hn))
  · have p := p1 hn
    rw [E.method] at p
    exact p.sym (q1 (fun h' => hn (E.nodup.2 h')))

/-- **C92** NSB, also when there is no finite value. -/
theorem C92_cte_nsb (h : Call W .cte .nsb a kw b) (hb : b.Valid) (K : Option Nat)
    (hK : kwOr kw "K" .none = (match K with | none => .none | some k => .int k)) (hK0 : ∀ k, K = some k → 0 < k) (hh : History kw l k s)
    (hcd : kwOr kw "cond_hist_len" (.int 1) = .int c) (hs : 0 < s) (hl : 0 < l) (hk : 0 < k) (hc : 0 < c)
    (hx : Relabelled x x') (hy : Relabelled y y') (hz : Relabelled z z') (hm : max (max k l) c * s < x.length)
    (hlen : x.length = y.length) (hlen2 : z.length = y.length) : CteEq W a kw x y z x' y' z' := by
  have E := sym_cte_emb hx hy hz hs hm hlen hlen2 (k := k) (l := l) (c := c)
  have hR := numRows_pos hs (hlen ▸ hm)
  obtain ⟨p1, p2⟩ := C82_cte_nsb h hb K hK hK0 hh hcd hs hl hk hc x y z hm hlen hlen2
  obtain ⟨q1, q2⟩ := C82_cte_nsb h hb K hK hK0 hh hcd hs hl hk hc x' y' z' (by rw [renamed_length hx]; exact hm)
    (by rw [renamed_length hx, renamed_length hy, hlen]) (by rw [renamed_length hz, renamed_length hy, hlen2])
  by_cases hn : Nsb.Defined ((futRows y y.length (max (max k l) c) s).zip
        ((histRows y y.length (max (max k l) c) s k).zip (histRows z y.length (max (max k l) c) s c))) K ∧
      Nsb.Defined ((histRows x y.length (max (max k l) c) s l).zip
        ((histRows y y.length (max (max k l) c) s k).zip (histRows z y.length (max (max k l) c) s c))) K ∧
      Nsb.Defined ((futRows y y.length (max (max k l) c) s).zip ((histRows x y.length (max (max k l) c) s l).zip
        ((histRows y y.length (max (max k l) c) s k).zip (histRows z y.length (max (max k l) c) s c)))) K ∧
      Nsb.Defined ((histRows y y.length (max (max k l) c) s k).zip (histRows z y.length (max (max k l) c) s c)) K
  · have p := p1 hn
    rw [E.nsb hR hK0] at p
    exact p.sym (q1 ((E.nsbDef K).1 hn))
  · exact (p2 hn).sym (q2 (fun h' => hn ((E.nsbDef K).2 h')))

end CTE

end Verif
