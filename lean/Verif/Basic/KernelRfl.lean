import Lean.Elab.Tactic

/-!
`kernel_rfl` proves `a = b` by `Eq.refl a` without asking the elaborator to check that `a` and `b` are definitionally equal: the
check is made by Lean's kernel when the theorem is added (and fails there if they are not). It is only a way to avoid the
slower unifier of the elaborator on long instruction sequences.
-/

open Lean Elab Tactic Meta in
/-- Close `a = b` with `Eq.refl a`, leaving the definitional equality check to the kernel. -/
elab "kernel_rfl" : tactic => do
  let g ← getMainGoal
  let t ← whnfR (← instantiateMVars (← g.getType))
  let some (α, a, _) := t.eq? | throwError "kernel_rfl: not an equation"
  let u ← getLevel α
  g.assign (mkApp2 (mkConst ``Eq.refl [u]) α a)
