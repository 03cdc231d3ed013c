import Verif.Lemmas.OrdinalDiv

/-! # Property C68 : divergences of ordinal patterns -/

namespace Verif

open Spec

section
variable {α : Type} [LinearOrder α] [Inhabited α]

/-- the rank patterns of all delay vectors of a series -/
def Spec.patterns (x : List α) (d s : Nat) : List (List Nat) := (delayVectors x d s).map rankPattern

theorem patterns_ne_nil {x : List α} {d s : Nat} (hn : (d - 1) * s < x.length) : patterns x d s ≠ [] := by
  have h := windows_ne_nil (x := x) hn
  rw [windows_eq] at h
  simpa [patterns] using h

theorem crossEntropy_codes (q : Argsort α) {x y : List α} {d s : Nat} (hx : TieFree x d s) (hy : TieFree y d s) :
    crossEntropy (ordCodes q x d s) (ordCodes q y d s) = crossEntropy (patterns x d s) (patterns y d s) := by
  have := crossEntropy_map_congr ((windows x d s)) (windows y d s)
    (fun w => (lehmer (sortFun q false w) : Int)) rankPattern (fun u hu v hv => ordCodes_congr q hx hy hu hv)
  exact this

/-- **C68** The ordinal cross-entropy of two series without ties in a window is the cross-entropy of their
rank patterns (over the patterns that occur in both), for every dimension up to 20, every step and every
sorting algorithm. -/
theorem C68_cross_entropy (q : Argsort α) (x y : List α) (d s : Nat) (hd : 1 ≤ d) (hd' : d ≤ 20) (hs : 1 ≤ s)
    (hx : (d - 1) * s < x.length) (hy : (d - 1) * s < y.length) (tx : TieFree x d s) (ty : TieFree y d s)
    (stable : Bool) (b : Base) (hb : b.Valid) :
    ordEntropy q [.arr1 x, .arr1 y] { dim := .int d, step := .int s, stable := stable } b =
      .ok (crossEntropy (patterns x d s) (patterns y d s) / b.ln) := by
  rw [ordCross_codes q x y hd hd' hs hx hy stable hb, crossEntropy_codes q tx ty]

example := C68_cross_entropy stableSort [3, 1, 2, 5, 4, 0] [2, 7, 1, 5, 0, 3] 3 1 (by decide) (by decide) (by decide) (by decide) (by decide) (by unfold TieFree delayVectors; decide) (by unfold TieFree delayVectors; decide) false (.num 2) (by norm_num [Base.Valid])

/-- **C68** The ordinal Kullback–Leibler divergence is cross-entropy minus permutation entropy; when every
pattern of the first series occurs in the second it is the textbook divergence of the pattern distributions,
non-negative, and 0 exactly when the patterns have the same frequencies. -/
theorem C68_kld (q : Argsort α) (x y : List α) (d s : Nat) (hd : 1 ≤ d) (hd' : d ≤ 20) (hs : 1 ≤ s)
    (hx : (d - 1) * s < x.length) (hy : (d - 1) * s < y.length) (tx : TieFree x d s) (ty : TieFree y d s)
    (stable : Bool) (b : Base) (hb : b.Std) :
    ∃ v, ordKld q x y { dim := .int d, step := .int s, stable := stable } b = .ok v ∧
      v = (crossEntropy (patterns x d s) (patterns y d s) - entropy (patterns x d s)) / b.ln ∧
      ((∀ a ∈ patterns x d s, a ∈ patterns y d s) →
        v = kl (patterns x d s) (patterns y d s) / b.ln ∧ 0 ≤ v ∧
        (v = 0 ↔ SameDist (patterns x d s) (patterns y d s))) := by
  refine ⟨_, ?_, rfl, fun h => ?_⟩
  · unfold ordKld
    simp only [C68_cross_entropy q x y d s hd hd' hs hx hy tx ty stable b hb.valid, bind, Except.bind,
      C28_ordinal_entropy_is_permutation_entropy q x d s hd hs hx tx stable b hb.valid, pure, Except.pure]
    rw [sub_div]; rfl
  · rw [cross_sub_entropy _ _ h]
    refine ⟨rfl, div_nonneg (kl_nonneg h (patterns_ne_nil hx)) hb.ln_pos.le, ?_⟩
    rw [div_eq_zero_iff, or_iff_left hb.ln_pos.ne']
    exact kl_eq_zero_iff h (patterns_ne_nil hx)

example := C68_kld stableSort [3, 1, 2, 5, 4, 0] [2, 7, 1, 5, 0, 3] 3 1 (by decide) (by decide) (by decide) (by decide) (by decide) (by unfold TieFree delayVectors; decide) (by unfold TieFree delayVectors; decide) false (.num 2) (by norm_num [Base.Std])

/-- **C68** The divergence of a tie-free series from itself is 0. -/
theorem C68_kld_self (q : Argsort α) (x : List α) (d s : Nat) (hd : 1 ≤ d) (hd' : d ≤ 20) (hs : 1 ≤ s)
    (hx : (d - 1) * s < x.length) (tx : TieFree x d s) (stable : Bool) (b : Base) (hb : b.Std) :
    ordKld q x x { dim := .int d, step := .int s, stable := stable } b = .ok 0 := by
  obtain ⟨v, hv, _, h⟩ := C68_kld q x x d s hd hd' hs hx hx tx tx stable b hb
  rw [hv, (h fun _ h => h).2.2.2 fun _ => rfl]

example := C68_kld_self stableSort [3, 1, 2, 5, 4, 0] 3 1 (by decide) (by decide) (by decide) (by decide) (by unfold TieFree delayVectors; decide) false (.num 2) (by norm_num [Base.Std])

/-- **C68** Above dimension 20 the cross-entropy and so the divergence raise ValueError; a second series too
short for one window raises ValueError as well. -/
theorem C68_kld_rejects (q : Argsort α) (x y : List α) (d s : Nat) (hd : 1 ≤ d) (hs : 1 ≤ s)
    (hx : (d - 1) * s < x.length) (h : 20 < d ∨ y.length ≤ (d - 1) * s) (stable : Bool) (b : Base) :
    ordKld q x y { dim := .int d, step := .int s, stable := stable } b = .error .valueError := by
  have hc : ordCross q x y d s b = .error .valueError := by
    unfold ordCross
    by_cases h20 : 20 < d
    · have : symbolizeInt q x d s false = .error .valueError := by
        unfold symbolizeInt
        rw [symbolize_ok q x hd hs hx]
        simp only [bind, Except.bind]
        obtain ⟨w, ws, hw⟩ := List.exists_cons_of_ne_nil (windows_ne_nil hx)
        have hwl : w.length = d := mem_windows_length (x := x) (s := s) (by rw [hw]; simp)
        rw [hw, List.map_cons, List.mapM_cons]
        rw [C26_long_patterns_rejected _ (by rw [(sortFun_isArgsort q false w).length, hwl]; exact h20)]
        rfl
      rw [this]; rfl
    · have hy := h.resolve_left h20
      rw [symbolizeInt_ok q x hd (by omega) hs hx]
      have : symbolizeInt q y d s false = .error .valueError := by
        unfold symbolizeInt
        rw [((C27_symbolize_rejects q y d s false).1).2 (.inr (.inr (by
          have e : ((d : Int) - 1) = ((d - 1 : Nat) : Int) := by omega
          rw [e]; exact_mod_cast hy)))]
        rfl
      simp only [bind, Except.bind, this]
  unfold ordKld ordEntropy
  simp only [ordInit_pair x y hd hs hx stable, bind, Except.bind, hc]

example := C68_kld_rejects stableSort [3, 1, 2, 5, 4, 0] [1, 2] 3 1 (by decide) (by decide) (by decide) (.inr (by decide)) false .e

/-! ## Jensen–Shannon -/

theorem dictGet_of_mem {κ : Type} [DecidableEq κ] {l : List (κ × ℝ)} (hn : (l.map Prod.fst).Nodup) {e : κ × ℝ} (he : e ∈ l) :
    dictGet l e.1 = .ok e.2 := by
  unfold dictGet
  cases hf : l.reverse.find? (fun e' => decide (e'.1 = e.1)) with
  | none =>
    rw [List.find?_eq_none] at hf
    exact absurd (hf e (by simpa using he)) (by simp)
  | some e' =>
    have h1 : e'.1 = e.1 := by simpa using List.find?_some hf
    have h2 : e' ∈ l := by simpa using List.mem_of_find?_eq_some hf
    have : e' = e := List.inj_on_of_nodup_map hn h2 he h1
    simp [this]

theorem ordKey_dst (q : Argsort α) (x : List α) {d s : Nat} (hd : 2 ≤ d) (hs : 1 ≤ s) (hx : (d - 1) * s + 1 < x.length)
    (stable : Bool) {b : Base} (hb : b.Valid) :
    ∃ r : (ℝ × Option OrdDist) × Dst OKey, ordSimple q x d s stable b = .ok r.1 ∧
      (r.1.1, ordKeys r.1.2) = (r.2.ent / b.ln, r.2.dict) ∧
      r.2.Of ((windows x d s).map (fun w => OKey.perm (ordLabel q stable d s w))) := by
  obtain ⟨o, ho, hg, hp⟩ := ordProbabilities_good q x (d := d) (s := s) (by omega) hs (by omega) stable
  have hinj : Function.Injective OKey.perm := fun a b h => by injection h
  have hpat : (windows x d s).map (fun w => OKey.perm (ordLabel q stable d s w)) = o.patterns.map OKey.perm := by
    rw [hp, List.map_map]; rfl
  rw [hpat]
  have hval : ∀ e ∈ o.dist, e.2 = freq o.patterns e.1 := by
    intro e he
    have h1 := hg.lookup e.1 (hg.keysMem _ (List.mem_map.2 ⟨e, he, rfl⟩))
    rw [dictGet_of_mem hg.keysNodup he] at h1
    exact Except.ok.inj h1
  have hkeys : ∀ k, k ∈ o.dist.map Prod.fst ↔ k ∈ o.patterns := by
    refine fun k => ⟨hg.keysMem k, fun hk => ?_⟩
    have h1 := hg.lookup k hk
    unfold dictGet at h1
    cases hf : o.dist.reverse.find? (fun e' => decide (e'.1 = k)) with
    | none => rw [hf] at h1; cases h1
    | some e' =>
      have h1 : e'.1 = k := by simpa using List.find?_some hf
      have h2 : e' ∈ o.dist := by simpa using List.mem_of_find?_eq_some hf
      exact List.mem_map.2 ⟨e', h2, h1⟩
  let D : Dst OKey := ⟨(o.dist.map Prod.fst).map OKey.perm, freq (o.patterns.map OKey.perm), hg.keysNodup.map hinj, by
    intro a ha
    obtain ⟨k, hk, rfl⟩ := List.mem_map.1 ha
    exact freq_pos (List.mem_map.2 ⟨k, (hkeys k).1 hk, rfl⟩)⟩
  have hD : D.Of (o.patterns.map OKey.perm) := by
    refine ⟨fun k => ?_, fun k _ => rfl⟩
    show k ∈ (o.dist.map Prod.fst).map OKey.perm ↔ _
    simp only [List.mem_map (f := OKey.perm), hkeys]
  have hfreq : ∀ k, freq (o.patterns.map OKey.perm) (OKey.perm k) = freq o.patterns k := by
    intro k
    have := freq_map_congr o.patterns OKey.perm id k (fun v _ => hinj.eq_iff)
    rwa [List.map_id] at this
  refine ⟨((entropy o.patterns / b.ln, some o), D), ?_, ?_, hD⟩
  · unfold ordSimple
    have e : ((d : Int) - 1) = ((d - 1 : Nat) : Int) := by omega
    rw [if_neg (by omega), if_neg (by
      rw [e]; intro h
      have : (d - 1) * s + 1 = x.length := by exact_mod_cast h
      omega)]
    simp only [ho, bind, Except.bind, hg.value b hb, pure, Except.pure]
  · simp only [Prod.mk.injEq]
    constructor
    · rw [hD.ent]
      congr 1
      have := entropy_map_congr o.patterns OKey.perm id (fun u _ v _ => hinj.eq_iff)
      rw [this, List.map_id]
    · simp only [ordKeys, Dst.dict, D, List.map_map]
      refine List.map_congr_left fun e he => ?_
      simp only [Function.comp, hfreq, hval e he]

/-- **C68** The ordinal Jensen–Shannon divergence of any number of tie-free series, each with more than one
window, is the Jensen–Shannon divergence of their rank patterns: it lies between 0 and the log of the number
of series and is 0 exactly when the patterns have the same frequencies in all of them. -/
theorem C68_jsd (q : Argsort α) (data : List (List α)) (hne : data ≠ []) (d s : Nat) (hd : 2 ≤ d) (hs : 1 ≤ s)
    (hx : ∀ x ∈ data, (d - 1) * s + 1 < x.length) (ht : ∀ x ∈ data, TieFree x d s) (stable : Bool) (b : Base) (hb : b.Std) :
    ∃ v, ordJsd q data { dim := .int d, step := .int s, stable := stable } b = .ok v ∧
      v = jsd (data.map (fun x => patterns x d s)) / b.ln ∧ 0 ≤ v ∧ v ≤ Real.log data.length / b.ln ∧
      (v = 0 ↔ ∀ x ∈ data, ∀ y ∈ data, SameDist (patterns x d s) (patterns y d s)) := by
  have hbd := jsd_bounds (data.map (fun x => patterns x d s)) (by simpa using hne) (by
    intro P hP
    obtain ⟨x, hx', rfl⟩ := List.mem_map.1 hP
    exact patterns_ne_nil (by have := hx x hx'; omega))
  refine ⟨_, ?_, rfl, div_nonneg hbd.1 hb.ln_pos.le, div_le_div_of_nonneg_right (by simpa using hbd.2.1) hb.ln_pos.le, ?_⟩
  swap
  · rw [div_eq_zero_iff, or_iff_left hb.ln_pos.ne', hbd.2.2]
    simp
  have hch : ∀ x, ∃ r : (ℝ × Option OrdDist) × Dst OKey, x ∈ data → ordSimple q x d s stable b = .ok r.1 ∧
      (r.1.1, ordKeys r.1.2) = (r.2.ent / b.ln, r.2.dict) ∧
      r.2.Of ((windows x d s).map (fun w => OKey.perm (ordLabel q stable d s w))) := by
    intro x
    by_cases h : x ∈ data
    · obtain ⟨r, hr⟩ := ordKey_dst q x hd hs (hx x h) stable hb.valid
      exact ⟨r, fun _ => hr⟩
    · exact ⟨((0, none), ⟨[], 0, List.nodup_nil, by simp⟩), fun h' => absurd h' h⟩
  choose R hR using hch
  have h1 : data.mapM (fun x => ordInit [.arr1 x] { dim := .int d, step := .int s, stable := stable }) =
      .ok (data.map (fun x => ([OInput.arr1 x], (d : Int), (s : Int)))) :=
    mapM_ok _ fun x h => ordInit_arr1 x (by omega) hs (by have := hx x h; omega) stable
  have h2 : (data.zip (data.map (fun x => ([OInput.arr1 x], (d : Int), (s : Int))))).mapM
      (fun e => ordSimple q e.1 e.2.2.1 e.2.2.2 stable b) = .ok (data.map (fun x => (R x).1)) := by
    rw [zip_map_self, mapM_map']
    exact mapM_ok _ fun x h => (hR x h).1
  unfold ordJsd
  simp only [h1, h2, bind, Except.bind, List.map_map]
  have e : data.map ((fun v : ℝ × Option OrdDist => (v.1, ordKeys v.2)) ∘ fun x => (R x).1) =
      (data.map (fun x => (R x).2)).map (fun D => (D.ent / b.ln, D.dict)) := by
    rw [List.map_map]
    exact List.map_congr_left fun x h => (hR x h).2.1
  rw [e, jsdCore_ok _ (by simpa using hne) hb.valid,
    jsdD_of data (fun x => (R x).2) (fun x => (windows x d s).map (fun w => OKey.perm (ordLabel q stable d s w)))
      (fun x h => (hR x h).2.2)]
  congr 2
  have := jsd_map_congr (data.map (fun x => windows x d s)) (fun w => OKey.perm (ordLabel q stable d s w)) rankPattern (by
    intro l hl u hu l' hl' v hv
    obtain ⟨x, hx', rfl⟩ := List.mem_map.1 hl
    obtain ⟨y, hy', rfl⟩ := List.mem_map.1 hl'
    rw [OKey.perm.injEq, rankPattern_eq_iff]
    exact ordLabel_eq_iff q stable (mem_windows_length hv) (mem_windows_length hu) (ht y hy' v hv) (ht x hx' u hu))
  rw [List.map_map, List.map_map] at this
  exact this

example := C68_jsd stableSort [[3, 1, 2, 5, 4, 0], [2, 7, 1, 5, 0, 3]] (by decide) 3 1 (by decide) (by decide) (by decide) (by unfold TieFree delayVectors; decide) false (.num 2) (by norm_num [Base.Std])

theorem jsd_perm {κ : Type} [DecidableEq κ] {Ps Qs : List (List κ)} (h : Ps.Perm Qs) : jsd Ps = jsd Qs := by
  let D : List κ → Dst κ := fun P => ⟨P.dedup, freq P, List.nodup_dedup _, fun a ha => freq_pos (List.mem_dedup.1 ha)⟩
  have e : ∀ Ps, jsdD (Ps.map D) = jsd Ps := fun Ps => by
    have := jsdD_of Ps D id fun P _ => ⟨fun k => List.mem_dedup, fun k _ => rfl⟩
    rwa [List.map_id] at this
  rw [← e, ← e, jsdD_perm (h.map D)]

/-- **C68** The order of the series does not matter. -/
theorem C68_jsd_symmetric (q : Argsort α) (data data' : List (List α)) (hp : data.Perm data') (hne : data ≠ []) (d s : Nat)
    (hd : 2 ≤ d) (hs : 1 ≤ s) (hx : ∀ x ∈ data, (d - 1) * s + 1 < x.length) (ht : ∀ x ∈ data, TieFree x d s) (stable : Bool)
    (b : Base) (hb : b.Std) :
    ∃ v, ordJsd q data { dim := .int d, step := .int s, stable := stable } b = .ok v ∧
      ordJsd q data' { dim := .int d, step := .int s, stable := stable } b = .ok v := by
  obtain ⟨v, h1, h2, _⟩ := C68_jsd q data hne d s hd hs hx ht stable b hb
  obtain ⟨w, k1, k2, _⟩ := C68_jsd q data' (fun h => hne (by rw [h] at hp; exact hp.eq_nil)) d s hd hs
    (fun x hx' => hx x (hp.mem_iff.2 hx')) (fun x hx' => ht x (hp.mem_iff.2 hx')) stable b hb
  refine ⟨v, h1, ?_⟩
  rw [k1, k2, h2, jsd_perm (hp.map _)]

example := C68_jsd_symmetric stableSort [[3, 1, 2, 5, 4, 0], [2, 7, 1, 5, 0, 3]] [[2, 7, 1, 5, 0, 3], [3, 1, 2, 5, 4, 0]] (by decide) (by decide) 3 1 (by decide) (by decide) (by decide) (by unfold TieFree delayVectors; decide) false (.num 2) (by norm_num [Base.Std])

theorem patterns_map (x : List α) (f : α → α) (hf : StrictMono f) (d s : Nat) : patterns (x.map f) d s = patterns x d s := by
  unfold patterns delayVectors
  rw [List.length_map, List.map_map, List.map_map]
  refine List.map_congr_left fun i hi => ?_
  simp only [Function.comp]
  rw [rankPattern_eq_iff]
  refine ⟨by simp, fun j hj k hk => ?_⟩
  simp only [List.length_map, List.length_range] at hj hk
  have hb : ∀ m, m < d → i + m * s < x.length := by
    intro m hm
    have : m * s ≤ (d - 1) * s := Nat.mul_le_mul_right s (by omega)
    have := List.mem_range.1 hi
    omega
  have hg : ∀ m, m < d → (List.map (fun j => (List.map f x).getD (i + j * s) default) (List.range d)).getD m default =
      f ((List.map (fun j => x.getD (i + j * s) default) (List.range d)).getD m default) := by
    intro m hm
    have := hb m hm
    simp [List.getD_eq_getElem?_getD, hm, this]
  rw [hg j hj, hg k hk, hf.le_iff_le]

/-- **C68** A series and a strictly increasing transformation of it are at divergence 0. -/
theorem C68_increasing_maps (q : Argsort α) (x : List α) (f : α → α) (hf : StrictMono f) (d s : Nat) (hd : 2 ≤ d) (hd' : d ≤ 20)
    (hs : 1 ≤ s) (hx : (d - 1) * s + 1 < x.length) (ht : TieFree x d s) (stable : Bool) (b : Base) (hb : b.Std) :
    ordJsd q [x, x.map f] { dim := .int d, step := .int s, stable := stable } b = .ok 0 ∧
      ordKld q x (x.map f) { dim := .int d, step := .int s, stable := stable } b = .ok 0 := by
  have hp := patterns_map x f hf d s
  have ht' : TieFree (x.map f) d s := by
    intro w hw
    obtain ⟨i, hi, rfl⟩ := List.mem_map.1 hw
    rw [List.length_map] at hi
    have := ht _ (List.mem_map.2 ⟨i, hi, rfl⟩)
    have e : (List.range d).map (fun j => (x.map f).getD (i + j * s) default) =
        ((List.range d).map (fun j => x.getD (i + j * s) default)).map f := by
      rw [List.map_map]
      refine List.map_congr_left fun j hj => ?_
      have h1 : j * s ≤ (d - 1) * s := Nat.mul_le_mul_right s (by have := List.mem_range.1 hj; omega)
      have h2 : i + j * s < x.length := by have := List.mem_range.1 hi; omega
      simp [List.getD_eq_getElem?_getD, h2]
    rw [e]
    exact this.map hf.injective
  constructor
  · obtain ⟨v, h1, _, _, _, h2⟩ := C68_jsd q [x, x.map f] (by simp) d s hd hs (by simpa using hx) (by simpa using ⟨ht, ht'⟩) stable b hb
    rw [h1, h2.2 (by simp [hp, SameDist])]
  · obtain ⟨v, h1, _, h2⟩ := C68_kld q x (x.map f) d s (by omega) hd' hs (by omega) (by simp; omega) ht ht' stable b hb
    rw [h1, (h2 fun a ha => by rwa [hp]).2.2.2 (by rw [hp]; exact fun _ => rfl)]

example := C68_increasing_maps stableSort [3, 1, 2, 5, 4, 0] (fun x => 2 * x + 1) (fun a b h => by simpa using h) 3 1 (by decide) (by decide) (by decide) (by decide) (by unfold TieFree delayVectors; decide) false (.num 2) (by norm_num [Base.Std])

/-- **C68** For dimension 1 both divergences are 0 whatever the series. -/
theorem C68_dim_one (q : Argsort α) (x y : List α) (hx : x ≠ []) (hy : y ≠ []) (s : Nat) (hs : 1 ≤ s) (stable : Bool) (b : Base)
    (hb : b.Std) :
    ordJsd q [x, y] { dim := .int 1, step := .int s, stable := stable } b = .ok 0 ∧
      ordKld q x y { dim := .int 1, step := .int s, stable := stable } b = .ok 0 := by
  have tf : ∀ x : List α, TieFree x 1 s := by
    intro x w hw
    obtain ⟨a, rfl⟩ := List.length_eq_one_iff.1 (mem_windows_length hw)
    simp
  have hx' : (1 - 1) * s < x.length := by simpa using List.length_pos_iff.2 hx
  have hy' : (1 - 1) * s < y.length := by simpa using List.length_pos_iff.2 hy
  have hpat : ∀ x : List α, patterns x 1 s = List.replicate x.length [0] := by
    intro x
    rw [patterns, List.eq_replicate_iff]
    refine ⟨by simp [delayVectors], fun p hp => ?_⟩
    obtain ⟨w, hw, rfl⟩ := List.mem_map.1 hp
    obtain ⟨a, rfl⟩ := List.length_eq_one_iff.1 (mem_windows_length hw)
    simp [rankPattern]
  have hf : ∀ x : List α, x ≠ [] → ∀ a, freq (patterns x 1 s) a = if a = [0] then 1 else 0 := by
    intro x hx a
    rw [hpat, freq, cnt]
    have : (0:ℝ) < x.length := by exact_mod_cast List.length_pos_iff.2 hx
    split_ifs with h
    · rw [List.countP_replicate, List.length_replicate]; simp [h, this.ne']
    · rw [List.countP_replicate]; simp [Ne.symm h]
  constructor
  · have hi : ∀ x : List α, x ≠ [] → ordInit [.arr1 x] { dim := .int 1, step := .int s, stable := stable } =
        .ok ([.arr1 x], (1 : Int), (s : Int)) := fun x hx => by
      have := ordInit_arr1 x (d := 1) (le_refl 1) hs (by simpa using List.length_pos_iff.2 hx) stable
      simpa using this
    unfold ordJsd
    simp only [List.mapM_cons, List.mapM_nil, hi x hx, hi y hy, bind, Except.bind, pure, Except.pure, List.zip_cons_cons,
      List.zip_nil_right, ordSimple, if_true, List.map_cons, List.map_nil, ordKeys]
    let D : Dst OKey := ⟨[.zero], fun _ => 1, by simp, by simp⟩
    have e : ((0 : ℝ), [(OKey.zero, (1 : ℝ))]) = (D.ent / b.ln, D.dict) := by simp [D, Dst.ent, Dst.dict]
    rw [e]
    have := jsdCore_ok [D, D] (by simp) hb.valid
    simp only [List.map_cons, List.map_nil] at this
    rw [this]
    have h0 : jsdD [D, D] = 0 := (jsdD_eq_zero_iff _ (by simp)).2 (by simp)
    rw [h0, zero_div]
  · obtain ⟨v, h1, _, h2⟩ := C68_kld q x y 1 s (le_refl 1) (by omega) hs hx' hy' (tf x) (tf y) stable b hb
    have : v = 0 := (h2 (by
      rw [hpat, hpat]
      intro a ha
      rw [List.mem_replicate] at ha ⊢
      exact ⟨by simpa using hy, ha.2⟩)).2.2.2 (fun a => by rw [hf x hx, hf y hy])
    rw [← this]
    exact_mod_cast h1

example := C68_dim_one stableSort [3, 1, 2, 5, 4, 0] [2, 7, 1, 5, 0, 3] (by decide) (by decide) 2 (by decide) false (.num 2) (by norm_num [Base.Std])

end
end Verif
