import Verif.Basic

/-!
# Reproducibility

What "two runs give the same answer" means when a run may fail: both return the same value, or neither
returns one.  (Which of several faults a failing run reports may depend on the interleaving.)
-/

namespace Knor

inductive SameOutcome {α : Type _} : Res α → Res α → Prop
  | ok (a : α) : SameOutcome (.ok a) (.ok a)
  | fail (e e' : Fault) : SameOutcome (.error e) (.error e')

/-- The same in other words. -/
theorem sameOutcome_iff {α : Type _} (x y : Res α) :
    SameOutcome x y ↔ ∀ a, x = .ok a ↔ y = .ok a := by
  constructor
  · rintro (a | ⟨e, e'⟩) b
    · exact Iff.rfl
    · exact ⟨nofun, nofun⟩
  · intro h
    cases x with
    | ok a => rw [(h a).1 rfl]; exact .ok a
    | error e =>
      cases y with
      | ok a => have := (h a).2 rfl; cases this
      | error e' => exact .fail e e'

end Knor
