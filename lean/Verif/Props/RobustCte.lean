import Verif.Props.Robust
import Verif.Props.ReversalEx
import Verif.Props.RobustEx

/-!
# C100, continued: conditional transfer entropy and the ordinal conditional measures
-/

namespace Verif

open Spec

variable {W : World} {a : PyName} {kw : Kw} {b : Base} {l k c s d : Nat}

section
variable {α : Type} [DecidableEq α] [Inhabited α]

/-- rows of the conditional embedding that a change of the series can touch -/
theorem rb_cte (xs ys zs xs' ys' zs' : List α) (h1 : xs.length = ys.length) (h2 : zs.length = ys.length) (h1' : xs'.length = ys'.length)
    (_h2' : zs'.length = ys'.length) (h3 : xs.length = xs'.length) (hs : 0 < s) (hm : max (max k l) c * s < xs.length) :
    |Spec.cmi (futRows ys ys.length (max (max k l) c) s) (histRows xs ys.length (max (max k l) c) s l)
        ((histRows ys ys.length (max (max k l) c) s k).zip (histRows zs ys.length (max (max k l) c) s c)) -
      Spec.cmi (futRows ys' ys'.length (max (max k l) c) s) (histRows xs' ys'.length (max (max k l) c) s l)
        ((histRows ys' ys'.length (max (max k l) c) s k).zip (histRows zs' ys'.length (max (max k l) c) s c))| ≤
      4 * (l * changed xs xs' + (k + 1) * changed ys ys' + c * changed zs zs') *
        ((1 + Real.log (numRows ys.length (max (max k l) c) s)) / (numRows ys.length (max (max k l) c) s)) := by
  have hy : ys'.length = ys.length := by omega
  rw [hy]
  set m := max (max k l) c with hmdef
  have lf : ∀ u : List α, (futRows u ys.length m s).length = numRows ys.length m s := fun u => by simp [futRows]
  have lh : ∀ (u : List α) (h : Nat), (histRows u ys.length m s h).length = numRows ys.length m s := fun u h => by simp [histRows]
  have lz : ∀ u v : List α, ((histRows u ys.length m s k).zip (histRows v ys.length m s c)).length = numRows ys.length m s := fun u v => by
    rw [List.length_zip, lh, lh, min_self]
  have key := rb_cmi_diff (futRows ys ys.length m s) (futRows ys' ys.length m s) (histRows xs ys.length m s l) (histRows xs' ys.length m s l)
    ((histRows ys ys.length m s k).zip (histRows zs ys.length m s c)) ((histRows ys' ys.length m s k).zip (histRows zs' ys.length m s c))
    (by rw [lf, lh]) (by rw [lh, lz]) (by rw [lf, lh]) (by rw [lh, lz]) (by rw [lf, lf])
  rw [lf] at key
  refine key.trans ?_
  have hL : 0 ≤ (1 + Real.log (numRows ys.length m s)) / (numRows ys.length m s) := by
    have := Real.log_natCast_nonneg (numRows ys.length m s)
    positivity
  refine mul_le_mul_of_nonneg_right ?_ hL
  have c1 := changed_zip_le (futRows ys ys.length m s) (futRows ys' ys.length m s)
    ((histRows xs ys.length m s l).zip ((histRows ys ys.length m s k).zip (histRows zs ys.length m s c)))
    ((histRows xs' ys.length m s l).zip ((histRows ys' ys.length m s k).zip (histRows zs' ys.length m s c)))
    (by rw [List.length_zip, lf, lh, lz, min_self])
  have c2 := changed_zip_le (histRows xs ys.length m s l) (histRows xs' ys.length m s l)
    ((histRows ys ys.length m s k).zip (histRows zs ys.length m s c)) ((histRows ys' ys.length m s k).zip (histRows zs' ys.length m s c))
    (by rw [lh, lz])
  have c3 := changed_zip_le (histRows ys ys.length m s k) (histRows ys' ys.length m s k) (histRows zs ys.length m s c) (histRows zs' ys.length m s c)
    (by rw [lh, lh])
  have d1 := rb_fut ys ys' m hs (h1 ▸ hm)
  have d2 := rb_hist ys ys' m k hs (by omega) (h1 ▸ hm)
  have d3 := rb_hist xs xs' m l hs (by omega) hm
  have d4 := rb_hist zs zs' m c hs (by omega) (by rw [h2, ← h1]; exact hm)
  rw [h1] at d3
  rw [h2] at d4
  have : changed ((futRows ys ys.length m s).zip ((histRows xs ys.length m s l).zip ((histRows ys ys.length m s k).zip (histRows zs ys.length m s c))))
      ((futRows ys' ys.length m s).zip ((histRows xs' ys.length m s l).zip ((histRows ys' ys.length m s k).zip (histRows zs' ys.length m s c)))) ≤
      l * changed xs xs' + (k + 1) * changed ys ys' + c * changed zs zs' := by
    rw [add_mul, one_mul]; omega
  have h' : (changed ((futRows ys ys.length m s).zip ((histRows xs ys.length m s l).zip ((histRows ys ys.length m s k).zip (histRows zs ys.length m s c))))
      ((futRows ys' ys.length m s).zip ((histRows xs' ys.length m s l).zip ((histRows ys' ys.length m s k).zip (histRows zs' ys.length m s c)))) : ℝ) ≤
      l * changed xs xs' + (k + 1) * changed ys ys' + c * changed zs zs' := by exact_mod_cast this
  linarith

end

/-- **C100** `im.conditional_transfer_entropy(source, dest, cond=z)`, also called as `im.transfer_entropy(source, dest, cond=z)`: a changed sample of the
source touches at most `src_hist_len` rows of the embedding, one of the destination at most `dest_hist_len + 1`, one of the condition at most
`cond_hist_len`. -/
theorem C100_cte (h : Call W .cte .discrete a kw b) (hb : b.Std) (hh : History kw l k s) (hcd : kwOr kw "cond_hist_len" (.int 1) = .int c)
    (hs : 0 < s) (hl : 0 < l) (hk : 0 < k) (hc : 0 < c) (x y z x' y' z' : List Int) (hm : max (max k l) c * s < x.length)
    (h1 : x.length = y.length) (h2 : z.length = y.length) (h1' : x'.length = y'.length) (h2' : z'.length = y'.length)
    (h3 : x.length = x'.length) (hov : y.length < 2 ^ 32) :
    let R := numRows y.length (max (max k l) c) s
    let δ := 4 * (l * changed x x' + (k + 1) * changed y y' + c * changed z z') * ((1 + Real.log R) / R)
    Within b δ (imCTE W [.ints x, .ints y] a (.val (.ints z)) kw) (imCTE W [.ints x', .ints y'] a (.val (.ints z')) kw) ∧
      Within b δ (imTE W [.ints x, .ints y] a (.val (.ints z)) kw) (imTE W [.ints x', .ints y'] a (.val (.ints z')) kw) := by
  intro R δ
  obtain ⟨e1, e2⟩ := C82_cte h hb hh hcd hs hl hk hc x y z hm h1 h2 hov
  obtain ⟨f1, f2⟩ := C82_cte h hb hh hcd hs hl hk hc x' y' z' (h3 ▸ hm) h1' h2' (by omega)
  rw [e1, e2, f1, f2]
  have := within_of hb (rb_cte (l := l) (k := k) (c := c) (s := s) x y z x' y' z' h1 h2 h1' h2' h3 hs hm)
  exact ⟨this, this⟩

/-! ## Ordinal approach -/

/-- **C100** ordinal conditional mutual information -/
theorem C100_ordinal_cmi (h : Call W .cmi .ordinal a kw b) (hb : b.Std) (ho : kwOr kw "offset" (.int 0) = .int 0)
    (x y z x' y' z' : List ℝ) (st : Bool)
    (k1 : kwOr kw "embedding_dim" .none = .int d) (k2 : kwOr kw "step_size" (.int 1) = .int s) (k3 : kwOr kw "stable" (.bool false) = .bool st)
    (hd : 1 ≤ d) (hs : 1 ≤ s) (h1 : x.length = y.length) (h2 : y.length = z.length) (h1' : x'.length = y'.length) (h2' : y'.length = z'.length)
    (h3 : x.length = x'.length) (hn : (d - 1) * s < x.length) (hov : x.length < 2 ^ 32) (htx : TieFree x d s) (hty : TieFree y d s) (htz : TieFree z d s)
    (htx' : TieFree x' d s) (hty' : TieFree y' d s) (htz' : TieFree z' d s) :
    let R := x.length - (d - 1) * s
    let δ := 4 * (d * (changed x x' + changed y y' + changed z z')) * ((1 + Real.log R) / R)
    Within b δ (imCMI W [.reals x, .reals y] a (.val (.reals z)) kw) (imCMI W [.reals x', .reals y'] a (.val (.reals z')) kw) ∧
      Within b δ (imMI W [.reals x, .reals y] a (.val (.reals z)) kw) (imMI W [.reals x', .reals y'] a (.val (.reals z')) kw) := by
  intro R δ
  obtain ⟨e1, e2⟩ := C82_cmi_ordinal h hb ho x y z d s st k1 k2 k3 hd hs h1 h2 hn hov htx hty htz
  obtain ⟨f1, f2⟩ := C82_cmi_ordinal h hb ho x' y' z' d s st k1 k2 k3 hd hs h1' h2' (h3 ▸ hn) (h3 ▸ hov) htx' hty' htz'
  rw [e1, e2, f1, f2]
  have key := rb_cmi_diff (ordPatterns x d s) (ordPatterns x' d s) (ordPatterns y d s) (ordPatterns y' d s) (ordPatterns z d s) (ordPatterns z' d s)
    (by rw [rb_patterns_len, rb_patterns_len, h1]) (by rw [rb_patterns_len, rb_patterns_len, h2]) (by rw [rb_patterns_len, rb_patterns_len, h1'])
    (by rw [rb_patterns_len, rb_patterns_len, h2']) (by rw [rb_patterns_len, rb_patterns_len, h3])
  rw [rb_patterns_len] at key
  have c1 := changed_zip_le (ordPatterns x d s) (ordPatterns x' d s) ((ordPatterns y d s).zip (ordPatterns z d s))
    ((ordPatterns y' d s).zip (ordPatterns z' d s)) (by rw [List.length_zip, rb_patterns_len, rb_patterns_len, rb_patterns_len, h1, h2, min_self])
  have c2 := changed_zip_le (ordPatterns y d s) (ordPatterns y' d s) (ordPatterns z d s) (ordPatterns z' d s) (by rw [rb_patterns_len, rb_patterns_len, h2])
  have p1 := rb_patterns (d := d) (s := s) x x' h3 hn
  have p2 := rb_patterns (d := d) (s := s) y y' (by omega) (h1 ▸ hn)
  have p3 := rb_patterns (d := d) (s := s) z z' (by omega) (h2 ▸ h1 ▸ hn)
  have hp : (changed ((ordPatterns x d s).zip ((ordPatterns y d s).zip (ordPatterns z d s)))
      ((ordPatterns x' d s).zip ((ordPatterns y' d s).zip (ordPatterns z' d s))) : ℝ) ≤ d * (changed x x' + changed y y' + changed z z') := by
    have : changed ((ordPatterns x d s).zip ((ordPatterns y d s).zip (ordPatterns z d s)))
      ((ordPatterns x' d s).zip ((ordPatterns y' d s).zip (ordPatterns z' d s))) ≤ d * (changed x x' + changed y y' + changed z z') := by
      rw [Nat.mul_add, Nat.mul_add]; omega
    exact_mod_cast this
  have hL : 0 ≤ (1 + Real.log R) / R := by
    have := Real.log_natCast_nonneg R
    positivity
  have := within_of hb (key.trans (mul_le_mul_of_nonneg_right (by linarith : _ ≤ 4 * ((d : ℝ) * (changed x x' + changed y y' + changed z z'))) hL))
  exact ⟨this, this⟩

/-- **C100** ordinal conditional transfer entropy -/
theorem C100_ordinal_cte (h : Call W .cte .ordinal a kw b) (hb : b.Std) (hh : History kw l k s) (hcd : kwOr kw "cond_hist_len" (.int 1) = .int c)
    (st : Bool) (k1 : kw "embedding_dim" = some (.int d)) (k3 : kwOr kw "stable" (.bool false) = .bool st)
    (hd : 1 ≤ d) (hd' : d ≤ 20) (hs : 1 ≤ s) (hl : 0 < l) (hk : 0 < k) (hc : 0 < c) (x y z x' y' z' : List ℝ) (h1 : x.length = y.length)
    (h2 : z.length = y.length) (h1' : x'.length = y'.length) (h2' : z'.length = y'.length) (h3 : x.length = x'.length)
    (hn : (d - 1) * s + max (max k l) c * s < x.length) (hov : x.length < 2 ^ 32) (htx : TieFree x d s) (hty : TieFree y d s) (htz : TieFree z d s)
    (htx' : TieFree x' d s) (hty' : TieFree y' d s) (htz' : TieFree z' d s) :
    let R := numRows (x.length - (d - 1) * s) (max (max k l) c) s
    let δ := 4 * (d * (l * changed x x' + (k + 1) * changed y y' + c * changed z z')) * ((1 + Real.log R) / R)
    Within b δ (imCTE W [.reals x, .reals y] a (.val (.reals z)) kw) (imCTE W [.reals x', .reals y'] a (.val (.reals z')) kw) ∧
      Within b δ (imTE W [.reals x, .reals y] a (.val (.reals z)) kw) (imTE W [.reals x', .reals y'] a (.val (.reals z')) kw) := by
  intro R δ
  obtain ⟨e1, e2⟩ := C82_cte_ordinal h hb hh hcd d st k1 k3 hd hd' hs hl hk hc x y z h1 h2 hn hov htx hty htz
  obtain ⟨f1, f2⟩ := C82_cte_ordinal h hb hh hcd d st k1 k3 hd hd' hs hl hk hc x' y' z' h1' h2' (h3 ▸ hn) (h3 ▸ hov) htx' hty' htz'
  rw [e1, e2, f1, f2]
  have key := rb_cte (l := l) (k := k) (c := c) (s := s) (ordPatterns x d s) (ordPatterns y d s) (ordPatterns z d s) (ordPatterns x' d s)
    (ordPatterns y' d s) (ordPatterns z' d s)
    (by rw [rb_patterns_len, rb_patterns_len, h1]) (by rw [rb_patterns_len, rb_patterns_len, h2]) (by rw [rb_patterns_len, rb_patterns_len, h1'])
    (by rw [rb_patterns_len, rb_patterns_len, h2']) (by rw [rb_patterns_len, rb_patterns_len, h3]) hs (by rw [rb_patterns_len]; omega)
  rw [rb_patterns_len, rb_patterns_len, ← h1, ← h1'] at key
  have p1 := rb_patterns (d := d) (s := s) x x' h3 (by omega)
  have p2 := rb_patterns (d := d) (s := s) y y' (by omega) (by omega)
  have p3 := rb_patterns (d := d) (s := s) z z' (by omega) (by omega)
  have p1' : (changed (ordPatterns x d s) (ordPatterns x' d s) : ℝ) ≤ d * changed x x' := by exact_mod_cast p1
  have p2' : (changed (ordPatterns y d s) (ordPatterns y' d s) : ℝ) ≤ d * changed y y' := by exact_mod_cast p2
  have p3' : (changed (ordPatterns z d s) (ordPatterns z' d s) : ℝ) ≤ d * changed z z' := by exact_mod_cast p3
  have hL : 0 ≤ (1 + Real.log R) / R := by
    have := Real.log_natCast_nonneg R
    positivity
  have q1 : (l : ℝ) * changed (ordPatterns x d s) (ordPatterns x' d s) ≤ l * (d * changed x x') := by gcongr
  have q2 : ((k : ℝ) + 1) * changed (ordPatterns y d s) (ordPatterns y' d s) ≤ (k + 1) * (d * changed y y') := by gcongr
  have q3 : (c : ℝ) * changed (ordPatterns z d s) (ordPatterns z' d s) ≤ c * (d * changed z z') := by gcongr
  have q : 4 * ((l : ℝ) * changed (ordPatterns x d s) (ordPatterns x' d s) + (k + 1) * changed (ordPatterns y d s) (ordPatterns y' d s) +
      c * changed (ordPatterns z d s) (ordPatterns z' d s)) ≤ 4 * (d * (l * changed x x' + (k + 1) * changed y y' + c * changed z z')) := by nlinarith
  have := within_of hb (key.trans (mul_le_mul_of_nonneg_right q hL))
  exact ⟨this, this⟩

/-! ## Concrete calls -/

example := C100_cte (l := 1) (k := 2) (c := 1) (s := 1) (b := .e) (call "discrete", [("dest_hist_len", .int 2)]) trivial
  ⟨by kw, by kw, by kw, by kw, by kw⟩ (by kw) one_pos one_pos two_pos one_pos [1, 2, 2, 3, 1] [0, 0, 1, 1, 0] [4, 4, 4, 5, 5] [1, 2, 7, 3, 1]
  [0, 0, 1, 1, 0] [4, 4, 6, 5, 5] (by simp) rfl rfl rfl rfl rfl (by simp)
example := C100_ordinal_cmi (d := 3) (s := 1) (b := .e) (call "ordinal", [("embedding_dim", .int 3)]) trivial (by kw)
  [0, 3, 1, 2, 5, 4] [2, 1, 7, 4, 0, 9] [0, 3, 1, 2, 5, 4] [0, 3, 1000, 2, 5, 4] [2, 1, 7, 4, 0, 9] [0, 3, 1, 2, 5, 4] false (by kw) (by kw) (by kw)
  (by norm_num) le_rfl rfl rfl rfl rfl rfl (by simp) (by simp) revEx_x revEx_y revEx_x robEx_x' revEx_y revEx_x
example := C100_ordinal_cte (d := 3) (s := 1) (l := 1) (k := 1) (c := 1) (b := .e) (call "ordinal", [("embedding_dim", .int 3)]) trivial
  ⟨by kw, by kw, by kw, by kw, by kw⟩ (by kw) false (by kw) (by kw) (by norm_num) (by norm_num) le_rfl one_pos one_pos one_pos
  [0, 3, 1, 2, 5, 4] [2, 1, 7, 4, 0, 9] [0, 3, 1, 2, 5, 4] [0, 3, 1000, 2, 5, 4] [2, 1, 7, 4, 0, 9] [0, 3, 1, 2, 5, 4] rfl rfl rfl rfl rfl
  (by simp) (by simp) revEx_x revEx_y revEx_x robEx_x' revEx_y revEx_x

end Verif
