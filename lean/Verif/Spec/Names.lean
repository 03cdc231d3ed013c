import Verif.Model.Dispatch

/-!
# Independent specification: the documented names

The approach names of the docstrings of `entropy`, `mutual_information` and `transfer_entropy`
(`estimators/functional.py:331-349`, 416-435, 497-515) and the measure names of the docstring of
`get_estimator_class` and `estimator`.  Only the enumeration types of the dispatch model are used.
-/

namespace Verif.Spec

/-- documented names of an approach for a measure; the first is the full name -/
def approachNames : Kind → Fam → List String
  | _, .ansb => ["ansb"]
  | _, .bayes => ["bayes"]
  | _, .bonachela => ["bonachela"]
  | .h, .chaoShen => ["chao_shen", "cs"]
  | _, .chaoShen => ["chao_shen"]
  | .h, .chaoWangJost => ["chao_wang_jost", "cwj"]
  | _, .chaoWangJost => ["chao_wang_jost"]
  | _, .discrete => ["discrete"]
  | _, .grassberger => ["grassberger"]
  | _, .kernel => ["kernel"]
  | .h, .metric => ["metric", "kl"]
  | _, .metric => ["metric", "ksg"]
  | _, .millerMadow => ["miller_madow", "mm"]
  | _, .nsb => ["nsb"]
  | _, .ordinal => ["ordinal", "symbolic", "permutation"]
  | _, .renyi => ["renyi"]
  | .h, .shrink => ["shrink", "js"]
  | _, .shrink => ["shrink"]
  | _, .tsallis => ["tsallis"]
  | _, .zhang => ["zhang"]

/-- documented measure names of `get_estimator_class` -/
def measureNames : Kind → List String
  | .h => ["entropy", "h"]
  | .mi => ["mutual_information", "mi"]
  | .cmi => ["conditional_mutual_information", "cmi"]
  | .te => ["transfer_entropy", "te"]
  | .cte => ["conditional_transfer_entropy", "cte"]

/-- `s` is `name` up to the case of ASCII letters -/
def CaseVariant (s name : String) : Prop := s.toList.map Char.toLower = name.toList

end Verif.Spec
