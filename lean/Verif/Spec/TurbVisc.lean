import Verif.Model.TurbVisc

/-! # States for the claims about viscosity -/

namespace DNDSR.Turb

variable {d : Nat}

/-- the state seen from a frame that moves with velocity `-w` -/
noncomputable def St.boost (w : Fin d → ℝ) (u : St d) : St d := { u with mom := fun j => u.mom j + u.rho * w j }

/-- its gradients there -/
noncomputable def Gr.boost (w : Fin d → ℝ) (g : Gr d) : Gr d := { g with mom := fun i j => g.mom i j + g.rho i * w j }

/-- Sutherland's law: the viscosity at temperature `T`, if it is `mu` at `T0` -/
noncomputable def sutherland (mu T0 C T : ℝ) : ℝ := mu * (T / T0) ^ (3 / 2 : ℝ) * (T0 + C) / (T + C)

/-- no quantity changes in space -/
def Gr.none : Gr d := ⟨fun _ => 0, fun _ _ => 0, fun _ => 0, fun _ => 0⟩

end DNDSR.Turb
