import Verif.Model.Gas

/-!
# Internal energy of a conservative state
-/

namespace DNDSR.Gas

variable {d : Nat}

/-- Internal energy per volume: total energy minus kinetic energy. -/
noncomputable def internal (U : St ℝ d) : ℝ := U.2.2 - (∑ i, U.2.1 i * U.2.1 i) / (2 * U.1)

/-- The same with `eps` added to the density in the denominator, which is how the code guards its divisions. -/
noncomputable def internalG (eps : ℝ) (U : St ℝ d) : ℝ := U.2.2 - (∑ i, U.2.1 i * U.2.1 i) / (2 * (U.1 + eps))

end DNDSR.Gas
