import Verif.Model.Ctor

/-!
# Specification: the keyword arguments of the estimators

The documented keyword arguments of every estimator, read off the docstrings: what must be given, what may be given and
what is used otherwise.  Names and defaults only; nothing about how the constructors are chained.
-/

namespace Verif

/-- keyword arguments without default -/
def requiredKw : Kind → Fam → List String
  | _, .bayes => ["alpha"]
  | .h, .kernel => ["bandwidth", "kernel"]
  | .h, .ordinal => ["embedding_dim"]
  | .te, .ordinal => ["embedding_dim"]
  | .cte, .ordinal => ["embedding_dim"]
  | _, _ => []

/-- the keyword arguments every estimator of the measure takes, with defaults; `b0` is the configured base -/
def commonKw (b0 : PyVal) : Kind → List (String × PyVal)
  | .h => [("base", b0)]
  | .mi => [("offset", .int 0), ("base", b0), ("seed", .none)]
  | .cmi => [("offset", .int 0), ("base", b0), ("seed", .none)]
  | .te => [("prop_time", .int 0), ("step_size", .int 1), ("src_hist_len", .int 1), ("dest_hist_len", .int 1),
            ("cond_hist_len", .int 1), ("offset", .none), ("base", b0), ("seed", .none)]
  | .cte => [("prop_time", .int 0), ("step_size", .int 1), ("src_hist_len", .int 1), ("dest_hist_len", .int 1),
             ("cond_hist_len", .int 1), ("offset", .none), ("base", b0), ("seed", .none)]

/-- the level of the noise added by default: `1e-10` for the entropy and mutual information of the `metric` family,
`1e-8` otherwise -/
noncomputable def defaultNoise : Kind → Fam → PyVal
  | .te, .metric => .num (1 / 10 ^ 8)
  | .cte, .metric => .num (1 / 10 ^ 8)
  | _, .metric => .num (1 / 10 ^ 10)
  | _, _ => .num (1 / 10 ^ 8)

/-- the further keyword arguments of an estimator, with defaults -/
noncomputable def ownKw : Kind → Fam → List (String × PyVal)
  | .h, .ansb => [("K", .none), ("undersampled", .num (1 / 10))]
  | _, .ansb => [("undersampled", .num (1 / 10))]
  | _, .bayes => [("K", .none)]
  | _, .nsb => [("K", .none)]
  | .h, .kernel => [("workers", .int 1)]
  | _, .kernel => [("bandwidth", .none), ("kernel", .none), ("workers", .int 1)]
  | k, .metric => [("k", .int 4), ("ksg_id", .int 1), ("noise_level", defaultNoise k .metric), ("minkowski_p", .inf)]
  | .h, .ordinal => [("step_size", .int 1), ("stable", .bool false)]
  | .mi, .ordinal => [("embedding_dim", .none), ("step_size", .int 1), ("stable", .bool false)]
  | .cmi, .ordinal => [("embedding_dim", .none), ("step_size", .int 1), ("stable", .bool false)]
  | _, .ordinal => [("stable", .bool false)]
  | .h, .renyi => [("k", .int 4), ("alpha", .none)]
  | .h, .tsallis => [("k", .int 4), ("q", .none)]
  | k, .renyi => [("k", .int 4), ("alpha", .none), ("noise_level", defaultNoise k .renyi)]
  | k, .tsallis => [("k", .int 4), ("q", .none), ("noise_level", defaultNoise k .tsallis)]
  | _, _ => []

/-- `normalize` is a keyword of the (conditional) mutual information, except for the plug-in, Miller–Madow and ordinal
estimators -/
def normalizeKw : Kind → Fam → List (String × PyVal)
  | .mi, f => if f = .discrete ∨ f = .millerMadow ∨ f = .ordinal then [] else [("normalize", .bool false)]
  | .cmi, f => if f = .discrete ∨ f = .millerMadow ∨ f = .ordinal then [] else [("normalize", .bool false)]
  | _, _ => []

/-- optional keyword arguments with their default -/
noncomputable def optionalKw (b0 : PyVal) (c : EstClass) : List (String × PyVal) :=
  ownKw c.kind c.fam ++ normalizeKw c.kind c.fam ++ commonKw b0 c.kind

/-- keyword arguments that are accepted and have no effect -/
def ignoredKw : Kind → Fam → List String
  | .mi, .renyi => ["step_size"]
  | .cmi, .renyi => ["step_size"]
  | .mi, .tsallis => ["step_size"]
  | .cmi, .tsallis => ["step_size"]
  | _, _ => []

/-- all keyword arguments an estimator accepts, besides `cond` -/
noncomputable def acceptedKw (b0 : PyVal) (c : EstClass) : List String :=
  requiredKw c.kind c.fam ++ (optionalKw b0 c).map (fun p => p.1) ++ ignoredKw c.kind c.fam

/-- the condition an estimator takes: none for entropies, `None` or nothing for the unconditional measures, data for the
conditional ones -/
def CondKw.okFor {D : Type} : CondKw D → Kind → Prop
  | .absent, .h => True
  | .absent, .mi => True
  | .absent, .te => True
  | .none, .mi => True
  | .none, .te => True
  | .val _, .cmi => True
  | .val _, .cte => True
  | _, _ => False

/-- transfer entropies take exactly two series -/
def arityOk (k : Kind) (n : Nat) : Prop :=
  match k with
  | .te => n = 2
  | .cte => n = 2
  | _ => True

end Verif
