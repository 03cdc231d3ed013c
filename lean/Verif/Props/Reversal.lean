import Verif.Spec.Reversal
import Verif.Props.EndToEndUnits
import Verif.Props.AlmostSure

/-!
# C97: ordinal measures of inverted and of time-reversed series

Concrete calls that meet the hypotheses are in `Props/ReversalEx.lean`.
-/

namespace Verif

open Spec

section patterns
variable {d s : ℕ}

theorem rev_sameOrder_map {f : ℝ → ℝ} (hf : KeepsOrInverts f) (v w : List ℝ) : SameOrder (v.map f) (w.map f) ↔ SameOrder v w := by
  unfold SameOrder
  simp only [List.length_map]
  refine and_congr_right fun hl => ?_
  have e : ∀ (u : List ℝ) (i : ℕ), i < u.length → (u.map f).getD i default = f (u.getD i default) := fun u i hi => by
    simp [List.getD_eq_getElem?_getD, hi]
  rcases hf with hf | hf
  · refine forall₂_congr fun i hi => forall₂_congr fun j hj => ?_
    rw [e v i hi, e v j hj, e w i (hl ▸ hi), e w j (hl ▸ hj), hf.le_iff_le, hf.le_iff_le]
  · constructor
    · intro h i hi j hj
      have := h j hj i hi
      rwa [e v i hi, e v j hj, e w i (hl ▸ hi), e w j (hl ▸ hj), hf.le_iff_ge, hf.le_iff_ge] at this
    · intro h i hi j hj
      rw [e v i hi, e v j hj, e w i (hl ▸ hi), e w j (hl ▸ hj), hf.le_iff_ge, hf.le_iff_ge]
      exact h j hj i hi

theorem rev_injective {f : ℝ → ℝ} (hf : KeepsOrInverts f) : Function.Injective f := hf.elim StrictMono.injective StrictAnti.injective

theorem rev_index {N d s i j : ℕ} (hi : i < N - (d - 1) * s) (hj : j < d) : i + j * s < N := by
  have : j * s ≤ (d - 1) * s := Nat.mul_le_mul_right s (by omega)
  omega

theorem rev_win_map (f : ℝ → ℝ) (x : List ℝ) {i : ℕ} (hi : i < x.length - (d - 1) * s) : win (x.map f) d s i = (win x d s i).map f := by
  unfold win
  rw [List.map_map]
  refine List.map_congr_left fun j hj => ?_
  have := rev_index hi (List.mem_range.1 hj)
  simp [List.getD_eq_getElem?_getD, this]

theorem rev_tieFree_map {f : ℝ → ℝ} (hf : KeepsOrInverts f) {x : List ℝ} (h : TieFree x d s) : TieFree (x.map f) d s := by
  intro w hw
  rw [delayVectors_win, List.length_map] at hw
  obtain ⟨i, hi, rfl⟩ := List.mem_map.1 hw
  rw [rev_win_map f x (List.mem_range.1 hi)]
  exact (h _ (win_mem (List.mem_range.1 hi))).map (rev_injective hf)

/-- two windows of the image have the same pattern iff the windows of the series have -/
theorem rev_pattern_map {f : ℝ → ℝ} (hf : KeepsOrInverts f) (x : List ℝ) {i j : ℕ} (hi : i < x.length - (d - 1) * s) (hj : j < x.length - (d - 1) * s) :
    rankPattern (win (x.map f) d s i) = rankPattern (win (x.map f) d s j) ↔ rankPattern (win x d s i) = rankPattern (win x d s j) := by
  rw [rankPattern_eq_iff, rankPattern_eq_iff, rev_win_map f x hi, rev_win_map f x hj, rev_sameOrder_map hf]

theorem rev_win_reverse (x : List ℝ) {i : ℕ} (hi : i < x.length - (d - 1) * s) :
    win x.reverse d s i = (win x d s (x.length - (d - 1) * s - 1 - i)).reverse := by
  unfold win
  refine List.ext_getElem (by simp) fun j h1 h2 => ?_
  have hj : j < d := by simpa using h1
  have h3 := rev_index hi hj
  have h4 : (d - 1 - j) * s + j * s = (d - 1) * s := by rw [← Nat.add_mul]; congr 1; omega
  have h5 := rev_index (N := x.length) (d := d) (s := s) (i := x.length - (d - 1) * s - 1 - i) (j := d - 1 - j) (by omega) (by omega)
  have e : x.length - 1 - (i + j * s) = x.length - (d - 1) * s - 1 - i + (d - 1 - j) * s := by omega
  simp only [List.getElem_map, List.getElem_range, List.getElem_reverse, List.length_map, List.length_range, List.getD_eq_getElem?_getD]
  rw [List.getElem?_reverse h3, e]

theorem rev_rank_reverse (w : List ℝ) : rankPattern w.reverse = (rankPattern w).reverse := by
  unfold rankPattern
  rw [List.map_reverse]
  simp only [List.countP_reverse]

theorem rev_tieFree_reverse {x : List ℝ} (h : TieFree x d s) : TieFree x.reverse d s := by
  intro w hw
  rw [delayVectors_win, List.length_reverse] at hw
  obtain ⟨i, hi, rfl⟩ := List.mem_map.1 hw
  have hi := List.mem_range.1 hi
  rw [rev_win_reverse x hi]
  exact List.nodup_reverse.2 (h _ (win_mem (by omega)))

theorem rev_range (N : ℕ) : (List.range N).map (fun i => N - 1 - i) = (List.range N).reverse :=
  List.ext_getElem (by simp) fun i h1 h2 => by simp

theorem rev_range_perm (N : ℕ) : ((List.range N).map (fun i => N - 1 - i)).Perm (List.range N) := by
  rw [rev_range]
  exact List.reverse_perm _

theorem rev_pattern_reverse (x : List ℝ) {i j : ℕ} (hi : i < x.length - (d - 1) * s) (hj : j < x.length - (d - 1) * s) :
    rankPattern (win x.reverse d s i) = rankPattern (win x.reverse d s j) ↔
      rankPattern (win x d s (x.length - (d - 1) * s - 1 - i)) = rankPattern (win x d s (x.length - (d - 1) * s - 1 - j)) := by
  rw [rev_win_reverse x hi, rev_win_reverse x hj, rev_rank_reverse, rev_rank_reverse, List.reverse_inj]

theorem rev_getD (x : List ℝ) {i : ℕ} (hi : i < x.length - (d - 1) * s) : (ordPatterns x d s).getD i default = rankPattern (win x d s i) := by
  rw [ordPatterns_win]
  simp [List.getD_eq_getElem?_getD, hi]

theorem rev_delay_getD (x : List ℝ) {i : ℕ} (hi : i < x.length - (d - 1) * s) : (delayVectors x d s).getD i [] = win x d s i := by
  rw [delayVectors_win]
  simp [List.getD_eq_getElem?_getD, hi]

end patterns

section values
variable {α β γ δ ε ζ Ω : Type} [DecidableEq α] [DecidableEq β] [DecidableEq γ] [DecidableEq δ] [DecidableEq ε] [DecidableEq ζ]

theorem rev_mi_congr (ws : List Ω) {f : Ω → α} {g : Ω → β} {f' : Ω → γ} {g' : Ω → δ} (hf : ∀ u ∈ ws, ∀ v ∈ ws, (f u = f v ↔ f' u = f' v))
    (hg : ∀ u ∈ ws, ∀ v ∈ ws, (g u = g v ↔ g' u = g' v)) : mi (ws.map f) (ws.map g) = mi (ws.map f') (ws.map g') := by
  rw [mi_map, mi_map, entropy_map_congr ws f f' hf, entropy_map_congr ws g g' hg,
    entropy_map_congr ws (fun w => (f w, g w)) (fun w => (f' w, g' w)) fun u hu v hv => by simp [hf u hu v hv, hg u hu v hv]]

theorem rev_cmi_congr (ws : List Ω) {f : Ω → α} {g : Ω → β} {h : Ω → γ} {f' : Ω → δ} {g' : Ω → ε} {h' : Ω → ζ}
    (hf : ∀ u ∈ ws, ∀ v ∈ ws, (f u = f v ↔ f' u = f' v)) (hg : ∀ u ∈ ws, ∀ v ∈ ws, (g u = g v ↔ g' u = g' v))
    (hh : ∀ u ∈ ws, ∀ v ∈ ws, (h u = h v ↔ h' u = h' v)) : cmi (ws.map f) (ws.map g) (ws.map h) = cmi (ws.map f') (ws.map g') (ws.map h') := by
  rw [cmi_map, cmi_map, entropy_map_congr ws (fun w => (f w, h w)) (fun w => (f' w, h' w)) fun u hu v hv => by simp [hf u hu v hv, hh u hu v hv],
    entropy_map_congr ws (fun w => (g w, h w)) (fun w => (g' w, h' w)) fun u hu v hv => by simp [hg u hu v hv, hh u hu v hv],
    entropy_map_congr ws (fun w => (f w, g w, h w)) (fun w => (f' w, g' w, h' w)) fun u hu v hv => by simp [hf u hu v hv, hg u hu v hv, hh u hu v hv],
    entropy_map_congr ws h h' hh]

theorem rev_mi_perm {ws ws' : List Ω} (hp : ws.Perm ws') (f : Ω → α) (g : Ω → β) : mi (ws.map f) (ws.map g) = mi (ws'.map f) (ws'.map g) := by
  rw [mi_map, mi_map, entropy_perm (hp.map f), entropy_perm (hp.map g), entropy_perm (hp.map fun w => (f w, g w))]

theorem rev_cmi_perm {ws ws' : List Ω} (hp : ws.Perm ws') (f : Ω → α) (g : Ω → β) (h : Ω → γ) :
    cmi (ws.map f) (ws.map g) (ws.map h) = cmi (ws'.map f) (ws'.map g) (ws'.map h) := by
  rw [cmi_map, cmi_map, entropy_perm (hp.map fun w => (f w, h w)), entropy_perm (hp.map fun w => (g w, h w)),
    entropy_perm (hp.map fun w => (f w, g w, h w)), entropy_perm (hp.map h)]

end values

variable {W : World} {a : PyName} {kw : Kw} {b : Base} {cond : CondKw PyData} {d s : ℕ}

/-- **C97** `im.entropy(x, approach="ordinal")`: the value of `f(x)` is that of `x` if `f` keeps or inverts the order (for example `f(x) = -x`), and so
is the value of the series read backwards. -/
theorem C97_entropy (h : Call W .h .ordinal a kw b) (hb : b.Valid) (x : List ℝ) (st : Bool)
    (h1 : kw "embedding_dim" = some (.int d)) (h2 : kwOr kw "step_size" (.int 1) = .int s)
    (h3 : kwOr kw "stable" (.bool false) = .bool st) (hd : 1 ≤ d) (hs : 1 ≤ s) (hn : (d - 1) * s < x.length) (ht : TieFree x d s) :
    ∃ v, imEntropy W [.reals x] a .absent kw = .ok v ∧ imEntropy W [.reals x.reverse] a .absent kw = .ok v ∧
      ∀ f, KeepsOrInverts f → imEntropy W [.reals (x.map f)] a .absent kw = .ok v := by
  refine ⟨_, C82_ordinal_entropy h hb x d s st h1 h2 h3 hd hs hn ht, ?_, fun f hf => ?_⟩
  · rw [C82_ordinal_entropy h hb x.reverse d s st h1 h2 h3 hd hs (by simpa using hn) (rev_tieFree_reverse ht)]
    congr 2
    show entropy (ordPatterns x.reverse d s) = entropy (ordPatterns x d s)
    rw [ordPatterns_win, ordPatterns_win, List.length_reverse,
      entropy_map_congr _ _ (fun i => rankPattern (win x d s (x.length - (d - 1) * s - 1 - i)))
        fun u hu v hv => rev_pattern_reverse x (List.mem_range.1 hu) (List.mem_range.1 hv)]
    have := entropy_perm ((rev_range_perm (x.length - (d - 1) * s)).map fun i => rankPattern (win x d s i))
    rwa [List.map_map] at this
  · rw [C82_ordinal_entropy h hb (x.map f) d s st h1 h2 h3 hd hs (by simpa using hn) (rev_tieFree_map hf ht)]
    congr 2
    show entropy (ordPatterns (x.map f) d s) = entropy (ordPatterns x d s)
    rw [ordPatterns_win, ordPatterns_win, List.length_map]
    exact entropy_map_congr _ _ _ fun u hu v hv => rev_pattern_map hf x (List.mem_range.1 hu) (List.mem_range.1 hv)

/-- **C97** joint entropy: a map for every series, or all series read backwards. -/
theorem C97_joint (h : Call W .h .ordinal a kw b) (hb : b.Valid) (cols : List (List ℝ)) (n : ℕ) (st : Bool)
    (h1 : kw "embedding_dim" = some (.int d)) (h2 : kwOr kw "step_size" (.int 1) = .int s)
    (h3 : kwOr kw "stable" (.bool false) = .bool st) (hd : 1 ≤ d) (hd' : d ≤ 20) (hs : 1 ≤ s) (hne : cols ≠ [])
    (hl : ∀ c ∈ cols, c.length = n) (hn : (d - 1) * s < n) (ht : ∀ c ∈ cols, TieFree c d s) :
    ∃ v, imEntropy W [.tup (cols.map .one)] a .absent kw = .ok v ∧ imEntropy W [.tup ((cols.map List.reverse).map .one)] a .absent kw = .ok v ∧
      ∀ L : List (List ℝ × (ℝ → ℝ)), L.map Prod.fst = cols → (∀ p ∈ L, KeepsOrInverts p.2) →
        imEntropy W [.tup ((L.map fun p => p.1.map p.2).map .one)] a .absent kw = .ok v := by
  refine ⟨_, C82_joint_ordinal h hb cols n d s st h1 h2 h3 hd hd' hs hne hl hn ht, ?_, fun L hL hf => ?_⟩
  · rw [C82_joint_ordinal h hb (cols.map List.reverse) n d s st h1 h2 h3 hd hd' hs (by simpa using hne)
      (fun c hc => by obtain ⟨c', hc', rfl⟩ := List.mem_map.1 hc; simpa using hl c' hc') hn
      (fun c hc => by obtain ⟨c', hc', rfl⟩ := List.mem_map.1 hc; exact rev_tieFree_reverse (ht c' hc'))]
    congr 2
    rw [entropy_map_congr _ _ (fun i => cols.map fun c => rankPattern ((delayVectors c d s).getD (n - (d - 1) * s - 1 - i) []))
        fun u hu v hv => ?_]
    · have := entropy_perm ((rev_range_perm (n - (d - 1) * s)).map fun t => cols.map fun c => rankPattern ((delayVectors c d s).getD t []))
      rwa [List.map_map] at this
    · have hu := List.mem_range.1 hu
      have hv := List.mem_range.1 hv
      rw [List.map_map, List.map_map, List.map_inj_left, List.map_inj_left]
      refine forall₂_congr fun c hc => ?_
      have e := hl c hc
      simp only [Function.comp]
      rw [rev_delay_getD c.reverse (by simpa [e] using hu), rev_delay_getD c.reverse (by simpa [e] using hv), rev_delay_getD c (by omega),
        rev_delay_getD c (by omega), rev_pattern_reverse c (by omega) (by omega), e]
  · subst hL
    have hl' : ∀ p ∈ L, p.1.length = n := fun p hp => hl _ (List.mem_map_of_mem hp)
    rw [C82_joint_ordinal h hb (L.map fun p => p.1.map p.2) n d s st h1 h2 h3 hd hd' hs (by simpa using hne)
        (fun c hc => by obtain ⟨p, hp, rfl⟩ := List.mem_map.1 hc; simpa using hl' p hp) hn (by
        intro c hc
        obtain ⟨p, hp, rfl⟩ := List.mem_map.1 hc
        exact rev_tieFree_map (hf p hp) (ht _ (List.mem_map_of_mem hp)))]
    congr 2
    refine entropy_map_congr _ _ _ fun u hu v hv => ?_
    have hu := List.mem_range.1 hu
    have hv := List.mem_range.1 hv
    rw [List.map_map, List.map_map, List.map_map, List.map_map, List.map_inj_left, List.map_inj_left]
    refine forall₂_congr fun p hp => ?_
    have e := hl' p hp
    simp only [Function.comp]
    rw [rev_delay_getD (p.1.map p.2) (by simpa [e] using hu), rev_delay_getD (p.1.map p.2) (by simpa [e] using hv), rev_delay_getD p.1 (by omega),
      rev_delay_getD p.1 (by omega), rev_pattern_map (hf p hp) p.1 (by omega) (by omega)]

/-- **C97** mutual information: each series with its own map, or both read backwards. -/
theorem C97_mi (h : Call W .mi .ordinal a kw b) (hb : b.Std) (hc : cond.isVal = false)
    (ho : kwOr kw "offset" (.int 0) = .int 0) (x y : List ℝ) (st : Bool)
    (h1 : kwOr kw "embedding_dim" .none = .int d) (h2 : kwOr kw "step_size" (.int 1) = .int s)
    (h3 : kwOr kw "stable" (.bool false) = .bool st) (hd : 1 ≤ d) (hs : 1 ≤ s) (hxy : x.length = y.length)
    (hn : (d - 1) * s < x.length) (hov : x.length < 2 ^ 32) (htx : TieFree x d s) (hty : TieFree y d s) :
    ∃ v, imMI W [.reals x, .reals y] a cond kw = .ok v ∧ imMI W [.reals x.reverse, .reals y.reverse] a cond kw = .ok v ∧
      ∀ f g, KeepsOrInverts f → KeepsOrInverts g → imMI W [.reals (x.map f), .reals (y.map g)] a cond kw = .ok v := by
  refine ⟨_, C82_mi_ordinal h hb hc ho x y d s st h1 h2 h3 hd hs hxy hn hov htx hty, ?_, fun f g hf hg => ?_⟩
  · rw [C82_mi_ordinal h hb hc ho x.reverse y.reverse d s st h1 h2 h3 hd hs (by simpa using hxy) (by simpa using hn) (by simpa using hov)
      (rev_tieFree_reverse htx) (rev_tieFree_reverse hty)]
    congr 2
    rw [ordPatterns_win, ordPatterns_win, ordPatterns_win, ordPatterns_win, List.length_reverse, List.length_reverse, ← hxy,
      rev_mi_congr _ (f' := fun i => rankPattern (win x d s (x.length - (d - 1) * s - 1 - i)))
        (g' := fun i => rankPattern (win y d s (x.length - (d - 1) * s - 1 - i)))
        (fun u hu v hv => rev_pattern_reverse x (List.mem_range.1 hu) (List.mem_range.1 hv))
        (fun u hu v hv => by
          have := rev_pattern_reverse (d := d) (s := s) y (i := u) (j := v) (hxy ▸ List.mem_range.1 hu) (hxy ▸ List.mem_range.1 hv)
          rwa [← hxy] at this)]
    have := rev_mi_perm (rev_range_perm (x.length - (d - 1) * s)) (fun i => rankPattern (win x d s i)) (fun i => rankPattern (win y d s i))
    rwa [List.map_map, List.map_map] at this
  · rw [C82_mi_ordinal h hb hc ho (x.map f) (y.map g) d s st h1 h2 h3 hd hs (by simpa using hxy) (by simpa using hn) (by simpa using hov)
      (rev_tieFree_map hf htx) (rev_tieFree_map hg hty)]
    congr 2
    rw [ordPatterns_win, ordPatterns_win, ordPatterns_win, ordPatterns_win, List.length_map, List.length_map, ← hxy]
    exact rev_mi_congr _ (fun u hu v hv => rev_pattern_map hf x (List.mem_range.1 hu) (List.mem_range.1 hv))
      (fun u hu v hv => rev_pattern_map hg y (hxy ▸ List.mem_range.1 hu) (hxy ▸ List.mem_range.1 hv))

/-- **C97** conditional mutual information. -/
theorem C97_cmi (h : Call W .cmi .ordinal a kw b) (hb : b.Std)
    (ho : kwOr kw "offset" (.int 0) = .int 0) (x y z : List ℝ) (st : Bool)
    (h1 : kwOr kw "embedding_dim" .none = .int d) (h2 : kwOr kw "step_size" (.int 1) = .int s)
    (h3 : kwOr kw "stable" (.bool false) = .bool st) (hd : 1 ≤ d) (hs : 1 ≤ s) (hxy : x.length = y.length)
    (hyz : y.length = z.length) (hn : (d - 1) * s < x.length) (hov : x.length < 2 ^ 32) (htx : TieFree x d s)
    (hty : TieFree y d s) (htz : TieFree z d s) :
    ∃ v, CmiIs W [.reals x, .reals y] a (.reals z) kw (.ok v) ∧ CmiIs W [.reals x.reverse, .reals y.reverse] a (.reals z.reverse) kw (.ok v) ∧
      ∀ f g e, KeepsOrInverts f → KeepsOrInverts g → KeepsOrInverts e →
        CmiIs W [.reals (x.map f), .reals (y.map g)] a (.reals (z.map e)) kw (.ok v) := by
  have hxz : x.length = z.length := hxy.trans hyz
  refine ⟨_, C82_cmi_ordinal h hb ho x y z d s st h1 h2 h3 hd hs hxy hyz hn hov htx hty htz, ?_, fun f g e hf hg he => ?_⟩
  · have key := C82_cmi_ordinal h hb ho x.reverse y.reverse z.reverse d s st h1 h2 h3 hd hs (by simpa using hxy) (by simpa using hyz)
      (by simpa using hn) (by simpa using hov) (rev_tieFree_reverse htx) (rev_tieFree_reverse hty) (rev_tieFree_reverse htz)
    convert key using 3
    rw [ordPatterns_win, ordPatterns_win, ordPatterns_win, ordPatterns_win, ordPatterns_win, ordPatterns_win, List.length_reverse,
      List.length_reverse, List.length_reverse, ← hxy, ← hxz]
    symm
    rw [rev_cmi_congr _ (f' := fun i => rankPattern (win x d s (x.length - (d - 1) * s - 1 - i)))
        (g' := fun i => rankPattern (win y d s (x.length - (d - 1) * s - 1 - i)))
        (h' := fun i => rankPattern (win z d s (x.length - (d - 1) * s - 1 - i)))
        (fun u hu v hv => rev_pattern_reverse x (List.mem_range.1 hu) (List.mem_range.1 hv))
        (fun u hu v hv => by
          have := rev_pattern_reverse (d := d) (s := s) y (i := u) (j := v) (hxy ▸ List.mem_range.1 hu) (hxy ▸ List.mem_range.1 hv)
          rwa [← hxy] at this)
        (fun u hu v hv => by
          have := rev_pattern_reverse (d := d) (s := s) z (i := u) (j := v) (hxz ▸ List.mem_range.1 hu) (hxz ▸ List.mem_range.1 hv)
          rwa [← hxz] at this)]
    have := rev_cmi_perm (rev_range_perm (x.length - (d - 1) * s)) (fun i => rankPattern (win x d s i)) (fun i => rankPattern (win y d s i))
      (fun i => rankPattern (win z d s i))
    rwa [List.map_map, List.map_map, List.map_map] at this
  · have key := C82_cmi_ordinal h hb ho (x.map f) (y.map g) (z.map e) d s st h1 h2 h3 hd hs (by simpa using hxy) (by simpa using hyz)
      (by simpa using hn) (by simpa using hov) (rev_tieFree_map hf htx) (rev_tieFree_map hg hty) (rev_tieFree_map he htz)
    convert key using 3
    rw [ordPatterns_win, ordPatterns_win, ordPatterns_win, ordPatterns_win, ordPatterns_win, ordPatterns_win, List.length_map,
      List.length_map, List.length_map, ← hxy, ← hxz]
    exact rev_cmi_congr _ (fun u hu v hv => (rev_pattern_map hf x (List.mem_range.1 hu) (List.mem_range.1 hv)).symm)
      (fun u hu v hv => (rev_pattern_map hg y (hxy ▸ List.mem_range.1 hu) (hxy ▸ List.mem_range.1 hv)).symm)
      (fun u hu v hv => (rev_pattern_map he z (hxz ▸ List.mem_range.1 hu) (hxz ▸ List.mem_range.1 hv)).symm)

section embedding
variable {m k l : ℕ}

theorem rev_fut_map {f : ℝ → ℝ} (hf : KeepsOrInverts f) (hs : 0 < s) (y : List ℝ) {n : ℕ} (hy : y.length - (d - 1) * s = n) {u v : ℕ}
    (hu : u < numRows n m s) (hv : v < numRows n m s) :
    [(ordPatterns (y.map f) d s).getD ((m + u) * s) default] = [(ordPatterns (y.map f) d s).getD ((m + v) * s) default] ↔
      [(ordPatterns y d s).getD ((m + u) * s) default] = [(ordPatterns y d s).getD ((m + v) * s) default] := by
  have e1 := numRows_index hs hu
  have e2 := numRows_index hs hv
  rw [rev_getD _ (by simpa [hy] using e1), rev_getD _ (by simpa [hy] using e2), rev_getD y (by omega), rev_getD y (by omega)]
  simp only [List.cons.injEq, and_true]
  exact rev_pattern_map hf y (by omega) (by omega)

theorem rev_hist_map {f : ℝ → ℝ} (hf : KeepsOrInverts f) (hs : 0 < s) (y : List ℝ) {n : ℕ} (hy : y.length - (d - 1) * s = n) (hk : k ≤ m) {u v : ℕ}
    (hu : u < numRows n m s) (hv : v < numRows n m s) :
    histRow (ordPatterns (y.map f) d s) m s k u = histRow (ordPatterns (y.map f) d s) m s k v ↔
      histRow (ordPatterns y d s) m s k u = histRow (ordPatterns y d s) m s k v := by
  unfold histRow
  rw [List.map_inj_left, List.map_inj_left]
  refine forall₂_congr fun j hj => ?_
  have hj := List.mem_range.1 hj
  have e1 : (m + u - k + j) * s < n := lt_of_le_of_lt (Nat.mul_le_mul_right s (by omega)) (numRows_index hs hu)
  have e2 : (m + v - k + j) * s < n := lt_of_le_of_lt (Nat.mul_le_mul_right s (by omega)) (numRows_index hs hv)
  rw [rev_getD _ (by simpa [hy] using e1), rev_getD _ (by simpa [hy] using e2), rev_getD y (by omega), rev_getD y (by omega)]
  exact rev_pattern_map hf y (by omega) (by omega)

end embedding

variable {l k c : ℕ}

/-- **C97** transfer entropy: each series with its own map. (Reading the series backwards does change it.) -/
theorem C97_te (h : Call W .te .ordinal a kw b) (hb : b.Valid) (hc : cond.isVal = false) (hh : History kw l k s)
    (st : Bool) (h1 : kw "embedding_dim" = some (.int d)) (h3 : kwOr kw "stable" (.bool false) = .bool st)
    (hd : 1 ≤ d) (hd' : d ≤ 20) (hs : 1 ≤ s) (hl : 0 < l) (hk : 0 < k) (x y : List ℝ) (hxy : x.length = y.length)
    (hn : (d - 1) * s + max k l * s < x.length) (hov : x.length < 2 ^ 32) (htx : TieFree x d s) (hty : TieFree y d s) :
    ∃ v, imTE W [.reals x, .reals y] a cond kw = .ok v ∧
      ∀ f g, KeepsOrInverts f → KeepsOrInverts g → imTE W [.reals (x.map f), .reals (y.map g)] a cond kw = .ok v := by
  refine ⟨_, C82_te_ordinal h hb hc hh d st h1 h3 hd hd' hs hl hk x y hxy hn hov htx hty, fun f g hf hg => ?_⟩
  rw [C82_te_ordinal h hb hc hh d st h1 h3 hd hd' hs hl hk (x.map f) (y.map g) (by simpa using hxy) (by simpa using hn) (by simpa using hov)
    (rev_tieFree_map hf htx) (rev_tieFree_map hg hty), List.length_map]
  congr 2
  exact rev_cmi_congr _ (fun u hu v hv => rev_fut_map hg hs y (by rw [hxy]) (List.mem_range.1 hu) (List.mem_range.1 hv))
    (fun u hu v hv => rev_hist_map hf hs x rfl (le_max_right _ _) (List.mem_range.1 hu) (List.mem_range.1 hv))
    (fun u hu v hv => rev_hist_map hg hs y (by rw [hxy]) (le_max_left _ _) (List.mem_range.1 hu) (List.mem_range.1 hv))

/-- **C97** conditional transfer entropy: each series with its own map. -/
theorem C97_cte (h : Call W .cte .ordinal a kw b) (hb : b.Std) (hh : History kw l k s) (hcd : kwOr kw "cond_hist_len" (.int 1) = .int c)
    (st : Bool) (h1 : kw "embedding_dim" = some (.int d)) (h3 : kwOr kw "stable" (.bool false) = .bool st)
    (hd : 1 ≤ d) (hd' : d ≤ 20) (hs : 1 ≤ s) (hl : 0 < l) (hk : 0 < k) (hc : 0 < c) (x y z : List ℝ) (hxy : x.length = y.length)
    (hzy : z.length = y.length) (hn : (d - 1) * s + max (max k l) c * s < x.length) (hov : x.length < 2 ^ 32)
    (htx : TieFree x d s) (hty : TieFree y d s) (htz : TieFree z d s) :
    ∃ v, CteIs W (.reals x) (.reals y) a (.reals z) kw (.ok v) ∧
      ∀ f g e, KeepsOrInverts f → KeepsOrInverts g → KeepsOrInverts e →
        CteIs W (.reals (x.map f)) (.reals (y.map g)) a (.reals (z.map e)) kw (.ok v) := by
  refine ⟨_, C82_cte_ordinal h hb hh hcd d st h1 h3 hd hd' hs hl hk hc x y z hxy hzy hn hov htx hty htz, fun f g e hf hg he => ?_⟩
  have key := C82_cte_ordinal h hb hh hcd d st h1 h3 hd hd' hs hl hk hc (x.map f) (y.map g) (z.map e) (by simpa using hxy) (by simpa using hzy)
    (by simpa using hn) (by simpa using hov) (rev_tieFree_map hf htx) (rev_tieFree_map hg hty) (rev_tieFree_map he htz)
  rw [List.length_map] at key
  convert key using 3
  unfold histRows futRows
  rw [zip_map_map, zip_map_map]
  symm
  refine rev_cmi_congr _ (fun u hu v hv => rev_fut_map hg hs y (by rw [hxy]) (List.mem_range.1 hu) (List.mem_range.1 hv))
    (fun u hu v hv => rev_hist_map hf hs x rfl ((le_max_right _ _).trans (le_max_left _ _)) (List.mem_range.1 hu) (List.mem_range.1 hv))
    (fun u hu v hv => ?_)
  have e1 := rev_hist_map (d := d) (k := k) hg hs y (by rw [hxy]) ((le_max_left k l).trans (le_max_left _ c)) (List.mem_range.1 hu) (List.mem_range.1 hv)
  have e2 := rev_hist_map (d := d) (k := c) he hs z (by rw [hxy, hzy]) (le_max_right (max k l) c) (List.mem_range.1 hu) (List.mem_range.1 hv)
  simp only [Prod.mk.injEq]
  rw [e1, e2]

end Verif
