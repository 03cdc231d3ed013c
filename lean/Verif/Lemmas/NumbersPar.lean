import Verif.Lemmas.Numbers
import Verif.Lemmas.EndToEndBase

/-!
# An integer and the same number as a float, as parameter
-/

namespace Verif

open Spec

theorem ptw_pos (n : Int) : (PyArg.int n).posNumber = (PyArg.num n).posNumber := by
  simp only [PyArg.posNumber, Int.cast_pos]

section
variable (n : Int) (k : Kernel) (w : Int)

theorem ptw_kde (data : Arr) (a : Option Arr) : kdeDensity data a ⟨.int n, k, w⟩ = kdeDensity data a ⟨.num n, k, w⟩ := by
  simp only [kdeDensity, ptw_pos]
theorem ptw_kernelEntropyLocal (args : List KArg) (b : Base) : kernelEntropyLocal args ⟨.int n, k, w⟩ b = kernelEntropyLocal args ⟨.num n, k, w⟩ b := by
  unfold kernelEntropyLocal kernelSimple
  simp only [ptw_kde]
theorem ptw_kernelEntropy (args : List KArg) (b : Base) : kernelEntropy args ⟨.int n, k, w⟩ b = kernelEntropy args ⟨.num n, k, w⟩ b := by
  unfold kernelEntropy kernelCross
  simp only [ptw_kde, ptw_kernelEntropyLocal]
theorem ptw_kernelMICalc (b : Base) (v : List Arr) : kernelMICalc ⟨.int n, k, w⟩ b v = kernelMICalc ⟨.num n, k, w⟩ b v := by
  simp only [kernelMICalc, ptw_kde]
theorem ptw_kernelCMICalc (b : Base) (v : List Arr) (c : Arr) : kernelCMICalc ⟨.int n, k, w⟩ b v c = kernelCMICalc ⟨.num n, k, w⟩ b v c := by
  simp only [kernelCMICalc, ptw_kde]
theorem ptw_kernelTECalc (b : Base) (sp : TESpaces ℝ) : kernelTECalc ⟨.int n, k, w⟩ b sp = kernelTECalc ⟨.num n, k, w⟩ b sp := by
  simp only [kernelTECalc, ptw_kde]
theorem ptw_kernelMILocal (d : List KVar) (o : Option Int) (nm : Bool) (b : Base) : kernelMILocal d o nm ⟨.int n, k, w⟩ b = kernelMILocal d o nm ⟨.num n, k, w⟩ b := by
  simp only [kernelMILocal, ptw_kernelMICalc]
theorem ptw_kernelMI (d : List KVar) (o : Option Int) (nm : Bool) (b : Base) : kernelMI d o nm ⟨.int n, k, w⟩ b = kernelMI d o nm ⟨.num n, k, w⟩ b := by
  simp only [kernelMI, ptw_kernelMILocal]
theorem ptw_kernelCMILocal (d : List KVar) (c : Option KVar) (o : Option Int) (nm : Bool) (b : Base) :
    kernelCMILocal d c o nm ⟨.int n, k, w⟩ b = kernelCMILocal d c o nm ⟨.num n, k, w⟩ b := by
  simp only [kernelCMILocal, ptw_kernelCMICalc]
theorem ptw_kernelCMI (d : List KVar) (c : Option KVar) (o : Option Int) (nm : Bool) (b : Base) :
    kernelCMI d c o nm ⟨.int n, k, w⟩ b = kernelCMI d c o nm ⟨.num n, k, w⟩ b := by
  simp only [kernelCMI, ptw_kernelCMILocal]
theorem ptw_kernelTELocal (x y : List ℝ) (p : TEParams) (u o : Option PyArg) (b : Base) (r : SrcRandom) :
    kernelTELocal x y p u o ⟨.int n, k, w⟩ b r = kernelTELocal x y p u o ⟨.num n, k, w⟩ b r := by
  simp only [kernelTELocal, ptw_kernelTECalc]
theorem ptw_kernelTE (x y : List ℝ) (p : TEParams) (u o : Option PyArg) (b : Base) (r : SrcRandom) :
    kernelTE x y p u o ⟨.int n, k, w⟩ b r = kernelTE x y p u o ⟨.num n, k, w⟩ b r := by
  simp only [kernelTE, ptw_kernelTELocal]
theorem ptw_kernelCTELocal (x y : List ℝ) (c : Option (List ℝ)) (p : TEParams) (m : PyArg) (u o : Option PyArg) (b : Base) :
    kernelCTELocal x y c p m u o ⟨.int n, k, w⟩ b = kernelCTELocal x y c p m u o ⟨.num n, k, w⟩ b := by
  simp only [kernelCTELocal, ptw_kernelTECalc]
theorem ptw_kernelCTE (x y : List ℝ) (c : Option (List ℝ)) (p : TEParams) (m : PyArg) (u o : Option PyArg) (b : Base) :
    kernelCTE x y c p m u o ⟨.int n, k, w⟩ b = kernelCTE x y c p m u o ⟨.num n, k, w⟩ b := by
  simp only [kernelCTE, ptw_kernelCTELocal]

end

section
variable (n : Int) (val : Nat → ℝ → KnnParts → ℝ → Base → Except Exc ℝ) (k : PyArg) (b : Base)

theorem ptw_expInit (args : List KArg) : expInit args k (.int n) = expInit args k (.num n) := by
  unfold expInit
  rw [ptw_pos]
theorem ptw_expEntropy (args : List KArg) : expEntropy val args k (.int n) b = expEntropy val args k (.num n) b := by
  unfold expEntropy
  rw [ptw_expInit]
theorem ptw_expEntropyLocal (args : List KArg) : expEntropyLocal val args k (.int n) b = expEntropyLocal val args k (.num n) b := by
  unfold expEntropyLocal
  simp only [ptw_expInit, ptw_expEntropy]
theorem ptw_expParams : expParams k (.int n) = expParams k (.num n) := by
  unfold expParams
  rw [ptw_pos]
theorem ptw_expMI (d : List KVar) (o : Option Int) (nm : Bool) (z : Nat → Option (Nat → Nat → ℝ)) :
    expMI val d o nm k (.int n) z b = expMI val d o nm k (.num n) z b := by
  simp only [expMI, ptw_expParams, ptw_expEntropy]
theorem ptw_expCMI (d : List KVar) (c : Option KVar) (o : Option Int) (nm : Bool) (z : Nat → Option (Nat → Nat → ℝ)) (zz : Option (Nat → Nat → ℝ)) :
    expCMI val d c o nm k (.int n) z zz b = expCMI val d c o nm k (.num n) z zz b := by
  simp only [expCMI, ptw_expParams, ptw_expEntropy]
theorem ptw_expTE (x y : List ℝ) (p : TEParams) (u o : Option PyArg) (zx zy : Option (Nat → ℝ)) (r : SrcRandom) :
    expTE val x y p u o k (.int n) zx zy b r = expTE val x y p u o k (.num n) zx zy b r := by
  simp only [expTE, ptw_expParams, ptw_expEntropy]
theorem ptw_expCTE (x y : List ℝ) (c : Option (List ℝ)) (p : TEParams) (m : PyArg) (u o : Option PyArg) (zx zy zz : Option (Nat → ℝ)) :
    expCTE val x y c p m u o k (.int n) zx zy zz b = expCTE val x y c p m u o k (.num n) zx zy zz b := by
  simp only [expCTE, ptw_expParams, ptw_expEntropy]

end

/-- `p'` has the same parameters as `e`, except that `key` is `n` as a float instead of an integer -/
structure NumTwin (key : String) (n : Int) (e : Est) (p' : Kw) : Prop where
  same : ∀ k, k ≠ key → p' k = e.par k
  int : e.par key = some (.int n)
  num : p' key = some (.num n)

theorem ptw_bind {τ β : Type} {a a' : Option τ} {f g : τ → Option β} (ha : a = a') (h : ∀ x, f x = g x) : (a >>= f) = (a' >>= g) := by
  rw [ha, funext h]

namespace NumTwin
variable {key : String} {n : Int} {e : Est} {p' : Kw} (h : NumTwin key n e p')
include h

theorem get {τ : Type} {k : String} {conv : PyVal → Option τ} (hc : conv (.num n) = conv (.int n) ∨ k ≠ key) :
    Est.get { e with par := p' } k conv = e.get k conv := by
  by_cases hk : k = key
  · rcases hc with hc | hc
    · subst hk
      simp only [Est.get, h.int, h.num, Option.bind_some, hc]
    · exact absurd hk hc
  · simp only [Est.get, h.same k hk]

theorem same_get {τ : Type} {k : String} {conv : PyVal → Option τ} (hc : conv (.num n) = conv (.int n)) :
    Est.get { e with par := p' } k conv = e.get k conv := h.get (.inl hc)

theorem bind_arg {β : Type} {f g : PyArg → Option β} (k : String) (hf : ∀ x, f x = g x) (hF : g (.int n) = g (.num n)) :
    (Est.get { e with par := p' } k PyVal.toArg >>= f) = (e.get k PyVal.toArg >>= g) := by
  rw [funext hf]
  by_cases hk : k = key
  · subst hk
    simp only [Est.get, h.int, h.num, Option.bind_some]
    exact hF.symm
  · rw [h.get (.inr hk)]

variable (hk : key ∈ realKw)
include hk

theorem other {τ : Type} {k : String} {conv : PyVal → Option τ} (hc : k ∉ realKw) :
    Est.get { e with par := p' } k conv = e.get k conv := h.get (.inr fun x => hc (x ▸ hk))

theorem ksg : Est.ksg { e with par := p' } = e.ksg :=
  ptw_bind (h.other hk (by decide)) fun _ => ptw_bind (h.other hk (by decide)) fun _ => ptw_bind (h.same_get rfl) fun _ => rfl
theorem ord : Est.ord { e with par := p' } = e.ord :=
  ptw_bind (h.other hk (by decide)) fun _ => ptw_bind (h.other hk (by decide)) fun _ => ptw_bind (h.other hk (by decide)) fun _ => rfl
theorem te : Est.te { e with par := p' } = e.te :=
  ptw_bind (h.other hk (by decide)) fun _ => ptw_bind (h.other hk (by decide)) fun _ => ptw_bind (h.other hk (by decide)) fun _ => rfl
theorem ordTe : Est.ordTe { e with par := p' } = e.ordTe :=
  ptw_bind (h.other hk (by decide)) fun _ => ptw_bind (h.te hk) fun _ => ptw_bind (h.other hk (by decide)) fun _ => rfl
theorem dclass : Est.dclass { e with par := p' } = e.dclass := by
  obtain ⟨⟨kind, fam⟩, data, cond, par⟩ := e
  cases fam <;> first
    | rfl
    | exact ptw_bind (h.same_get rfl) fun _ => ptw_bind (h.other hk (by decide)) fun _ => rfl
    | exact ptw_bind (h.other hk (by decide)) fun _ => rfl
theorem bclass : Est.bclass { e with par := p' } = e.bclass := by
  obtain ⟨⟨kind, fam⟩, data, cond, par⟩ := e
  cases fam <;> first
    | rfl
    | exact ptw_bind (h.same_get rfl) fun _ => ptw_bind (h.other hk (by decide)) fun _ => rfl
    | exact ptw_bind (h.same_get rfl) fun _ => rfl

theorem bind_kde {β : Type} {W : World} {f g : KdeCfg → Option β} (hf : ∀ x, f x = g x) (hF : ∀ k w, g ⟨.int n, k, w⟩ = g ⟨.num n, k, w⟩) :
    (Est.kde W { e with par := p' } >>= f) = (e.kde W >>= g) := by
  rw [funext hf]
  simp only [Est.kde, Option.bind_eq_bind, Option.bind_assoc, Option.bind_some]
  refine h.bind_arg "bandwidth" (fun x => ?_) ?_
  · exact ptw_bind (h.other hk (by decide)) fun _ => ptw_bind (h.other hk (by decide)) fun _ => rfl
  · exact ptw_bind rfl fun _ => ptw_bind rfl fun _ => hF _ _

end NumTwin

macro "ptw_close" : tactic => `(tactic| (
  intros
  simp only [ptw_kernelEntropyLocal, ptw_kernelEntropy, ptw_kernelMICalc, ptw_kernelCMICalc, ptw_kernelTECalc,
    ptw_kernelMILocal, ptw_kernelMI, ptw_kernelCMILocal, ptw_kernelCMI, ptw_kernelTELocal, ptw_kernelTE, ptw_kernelCTELocal, ptw_kernelCTE,
    ptw_expEntropy, ptw_expEntropyLocal, ptw_expParams, ptw_expMI, ptw_expCMI, ptw_expTE, ptw_expCTE]))

macro "ptw_walk" h:ident hk:ident : tactic => `(tactic| (
  repeat' first
    | rfl
    | refine ptw_bind (NumTwin.other $h $hk (by decide)) fun _ => ?_
    | refine ptw_bind (NumTwin.same_get $h rfl) fun _ => ?_
    | refine ptw_bind (NumTwin.ksg $h $hk) fun _ => ?_
    | refine ptw_bind (NumTwin.ord $h $hk) fun _ => ?_
    | refine ptw_bind (NumTwin.te $h $hk) fun _ => ?_
    | refine ptw_bind (NumTwin.ordTe $h $hk) fun _ => ?_
    | refine ptw_bind (NumTwin.dclass $h $hk) fun _ => ?_
    | refine ptw_bind (NumTwin.bclass $h $hk) fun _ => ?_
    | refine NumTwin.bind_kde $h $hk (fun _ => ?_) (by ptw_close)
    | refine NumTwin.bind_arg $h _ (fun _ => ?_) (by ptw_close)
    | refine ptw_bind rfl fun _ => ?_))

section
variable (W : World) {key : String} (hk : key ∈ realKw) {n : Int} {e : Est} {p' : Kw} (h : NumTwin key n e p')
include hk h

theorem ptw_entropy : Est.entropy W { e with par := p' } = Est.entropy W e := by
  obtain ⟨⟨kind, fam⟩, data, cond, par⟩ := e
  unfold Est.entropy
  cases fam <;> ptw_walk h hk

theorem ptw_mi : Est.mi W { e with par := p' } = Est.mi W e := by
  obtain ⟨⟨kind, fam⟩, data, cond, par⟩ := e
  unfold Est.mi
  cases fam <;> ptw_walk h hk

theorem ptw_cmi : Est.cmi W { e with par := p' } = Est.cmi W e := by
  obtain ⟨⟨kind, fam⟩, data, cond, par⟩ := e
  unfold Est.cmi
  cases fam <;> ptw_walk h hk

theorem ptw_teVal : Est.teVal W { e with par := p' } = Est.teVal W e := by
  obtain ⟨⟨kind, fam⟩, data, cond, par⟩ := e
  unfold Est.teVal
  cases fam <;> ptw_walk h hk

theorem ptw_cteVal : Est.cteVal W { e with par := p' } = Est.cteVal W e := by
  obtain ⟨⟨kind, fam⟩, data, cond, par⟩ := e
  unfold Est.cteVal
  cases fam <;> ptw_walk h hk

theorem ptw_entropyLocal : Est.entropyLocal W { e with par := p' } = Est.entropyLocal W e := by
  obtain ⟨⟨kind, fam⟩, data, cond, par⟩ := e
  unfold Est.entropyLocal
  cases fam <;> ptw_walk h hk

theorem ptw_miLocals : Est.miLocals W { e with par := p' } = Est.miLocals W e := by
  obtain ⟨⟨kind, fam⟩, data, cond, par⟩ := e
  unfold Est.miLocals
  cases fam <;> ptw_walk h hk

theorem ptw_cmiLocals : Est.cmiLocals W { e with par := p' } = Est.cmiLocals W e := by
  obtain ⟨⟨kind, fam⟩, data, cond, par⟩ := e
  unfold Est.cmiLocals
  cases fam <;> ptw_walk h hk

theorem ptw_teLocals : Est.teLocals W { e with par := p' } = Est.teLocals W e := by
  obtain ⟨⟨kind, fam⟩, data, cond, par⟩ := e
  unfold Est.teLocals
  cases fam <;> ptw_walk h hk

theorem ptw_cteLocals : Est.cteLocals W { e with par := p' } = Est.cteLocals W e := by
  obtain ⟨⟨kind, fam⟩, data, cond, par⟩ := e
  unfold Est.cteLocals
  cases fam <;> ptw_walk h hk

theorem ptw_miObj : Est.miObj W { e with par := p' } = Est.miObj W e := by
  obtain ⟨⟨kind, fam⟩, data, cond, par⟩ := e
  unfold Est.miObj
  cases fam <;> ptw_walk h hk

theorem ptw_cmiObj : Est.cmiObj W { e with par := p' } = Est.cmiObj W e := by
  obtain ⟨⟨kind, fam⟩, data, cond, par⟩ := e
  unfold Est.cmiObj
  cases fam <;> ptw_walk h hk

theorem ptw_teObj : Est.teObj W { e with par := p' } = Est.teObj W e := by
  obtain ⟨⟨kind, fam⟩, data, cond, par⟩ := e
  unfold Est.teObj
  cases fam <;> ptw_walk h hk

theorem ptw_cteObj : Est.cteObj W { e with par := p' } = Est.cteObj W e := by
  obtain ⟨⟨kind, fam⟩, data, cond, par⟩ := e
  unfold Est.cteObj
  cases fam <;> ptw_walk h hk

end

end Verif
