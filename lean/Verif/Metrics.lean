import Verif.Blade

/-!
# The metrics of the predefined algebras
-/

namespace Gal

/-- `vga_metric` (vga.hpp:16). -/
def vgaMetric : Metric := ⟨3, 0, 0⟩
/-- `pga_metric` (pga.hpp:18). -/
def pgaMetric : Metric := ⟨3, 0, 1⟩
/-- `pga2_metric` (pga2.hpp:17). -/
def pga2Metric : Metric := ⟨2, 0, 1⟩
/-- `cga_metric` (cga.hpp:20). -/
def cgaMetric : Metric := ⟨4, 1, 0⟩

end Gal
