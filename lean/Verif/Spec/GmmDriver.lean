import Verif.Model.GmmDriver
import Verif.Spec.CliMain
import Verif.Spec.Start

/-!
# Specification: the start of a Gaussian mixture call, and what the command line asks `gmm` to do
-/

namespace Knor.Spec

open Knor Knor.Gmm

variable {R S : Type _} {k n : Nat}

/-- The start of a mixture fit: the means are the given ones; without given means they are the rows that the engine
draws, one after the other (`forgy`, `random`), or zero vectors (`none`).  Covariances, weights and responsibilities are
zero, unless the means are not given and the initialisation is `random`. -/
structure GmmStart (zero : R) (it : Driver.InitT) (data : Nat → Fin n → R) (N : Nat) (rng : Gmm.Rng R S)
    (given : Option (Fin k → Fin n → R)) (s : St R k n) : Prop where
  means : ∀ g, given = some g → s.mu = g
  drawn : given = none → it = .forgy ∨ it = .random → ∀ c : Fin k, ∃ r, r < N ∧
    (Init.outputs rng.row k rng.seed)[c.val]? = some r ∧ s.mu c = data r
  blank : given = none → it = .none → ∀ c j, s.mu c j = zero
  rest : given.isSome = true ∨ it ≠ .random → (∀ c i j, s.sigma c i j = zero) ∧ (∀ c, s.Pk c = zero) ∧ ∀ r c, s.P r c = zero

end Knor.Spec

namespace Knor.Spec.Cli

open Knor Knor.Cli

variable {R B : Type _}

/-- What `gmm` is told. -/
structure GmmArgs (R B : Type _) extends Args R B where
  init : String
  covReg : R

/-- The command line tells `gmm` `a`.  What is left out is `random`, `eucl`, the tolerance -1 and the regularizer
`micro`. -/
structure AsksGmm [Neg R] [One R] (env : Env R B) (micro : R) (items : List Item) (rest : List Str) (a : GmmArgs R B) :
    Prop where
  args : Asks gmmP env (-1) "eucl" items rest a.toArgs
  init : Text gmmP.opts gmmP.positional items rest 't' "random" a.init
  covReg : (∃ w, Says gmmP.opts gmmP.positional items rest 'c' w ∧ env.stod w = .ok a.covReg) ∨
    Silent gmmP.opts gmmP.positional items rest 'c' ∧ a.covReg = micro

end Knor.Spec.Cli
