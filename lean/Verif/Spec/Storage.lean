import Verif.Spec.Arrival

/-!
# Aquifers with the same discharge and different storage
-/

namespace Oneka

/-- The aquifer with another conductivity, porosity and thickness, but the same wells and the same coefficients of the regional flow: so with the same potential and discharge (oneka/model.py:207-315). -/
def Aquifer.refilled (m : Aquifer ℝ) (K n H : ℝ) : Aquifer ℝ := { m with conductivity := K, porosity := n, thickness := H }

end Oneka
