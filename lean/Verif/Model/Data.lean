import Verif.Np
import Mathlib.Data.Real.Basic
import Mathlib.Algebra.BigOperators.Group.List.Basic

/-! # Model of `infomeasure/utils/data.py` : `DiscreteData` -/

namespace Verif

/-- `DiscreteData`, `infomeasure/utils/data.py:8-31` (frozen dataclass). -/
structure DiscreteData (α : Type) where
  uniq : List α
  counts : List Int
  N : Int
  K : Nat
  data : Option (List α)

/-- A counts array as NumPy sees it: integer dtype or floating dtype. -/
inductive CountArr
  | ints (l : List Int)
  | floats (l : List ℝ)

/-- `len(counts)` -/
def CountArr.len : CountArr → Nat
  | .ints l => l.length
  | .floats l => l.length

open Classical in
/-- `any(counts < 0)` -/
noncomputable def CountArr.anyNeg : CountArr → Bool
  | .ints l => l.any (fun c => decide (c < 0))
  | .floats l => l.any (fun c => decide (c < 0))

open Classical in
/-- `counts.sum() == 0` -/
noncomputable def CountArr.sumZero : CountArr → Bool
  | .ints l => decide (l.sum = 0)
  | .floats l => decide (l.sum = 0)

/-- `DiscreteData.__post_init__`, `infomeasure/utils/data.py:78-101`, check by check. -/
noncomputable def DiscreteData.postInit {α : Type} (uniq : List α) (counts : CountArr)
    (data : Option (List α)) : Except Exc (DiscreteData α) :=
  if uniq.length ≠ counts.len then .error .valueError
  else if counts.anyNeg then .error .valueError
  else if counts.sumZero then .error .valueError
  else
    match counts with
    | .floats _ => .error .valueError
    | .ints cs =>
      match data with
      | some d =>
        if d.length = 0 then .error .valueError
        else if cs.sum ≠ (d.length : Int) then .error .valueError
        else .ok { uniq := uniq, counts := cs, N := d.length, K := uniq.length, data := some d }
      | none =>
        .ok { uniq := uniq, counts := cs, N := cs.sum, K := uniq.length, data := none }

/-- `DiscreteData.from_data`, `infomeasure/utils/data.py:33-52`. -/
noncomputable def DiscreteData.fromData {α : Type} [LinearOrder α] (data : List α) :
    Except Exc (DiscreteData α) :=
  if data.length = 0 then .error .valueError
  else
    DiscreteData.postInit (npUnique data) (.ints ((npCounts data).map Int.ofNat)) (some data)

/-- `DiscreteData.from_counts`, `infomeasure/utils/data.py:55-76`. -/
noncomputable def DiscreteData.fromCounts {α : Type} (uniq : List α) (counts : CountArr) :
    Except Exc (DiscreteData α) :=
  DiscreteData.postInit uniq counts none

/-- `DiscreteData.probabilities`, `infomeasure/utils/data.py:104-118`. -/
noncomputable def DiscreteData.probabilities {α : Type} (d : DiscreteData α) : List ℝ :=
  d.counts.map (fun c : Int => (c : ℝ) / (d.N : ℝ))

/-- `dict(zip(keys, vals))[k]`: the last entry for a key wins, a missing key raises KeyError. -/
def dictGet {α β : Type} [DecidableEq α] (l : List (α × β)) (k : α) : Except Exc β :=
  match l.reverse.find? (fun e => decide (e.1 = k)) with
  | some e => .ok e.2
  | none => .error .keyError

/-- `DiscreteData.distribution_dict`, `infomeasure/utils/data.py:121-130`, as association list
in insertion order. -/
noncomputable def DiscreteData.distributionDict {α : Type} (d : DiscreteData α) : List (α × ℝ) :=
  d.uniq.zip d.probabilities

end Verif
