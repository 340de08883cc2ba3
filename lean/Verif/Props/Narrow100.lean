import Verif.Props.Narrow32
/-!
# The checked runs of rooms 100 wide, for C91

The modules import each other so that the evaluations, which take much memory, do not all go on at the same time.
-/

namespace Idc

theorem narrow_100_8 : checkedCompute 1000 (asPolygons ℚ (roomPolys 100 8)) = .ok ⟨[]⟩ := by decide +kernel

theorem narrow_100_16 : checkedCompute 1000 (asPolygons ℚ (roomPolys 100 16)) = .ok ⟨[]⟩ := by decide +kernel

theorem narrow_100_24 : checkedCompute 1000 (asPolygons ℚ (roomPolys 100 24)) = .ok ⟨[]⟩ := by decide +kernel

theorem narrow_100_32 : checkedCompute 1000 (asPolygons ℚ (roomPolys 100 32)) = .ok ⟨[]⟩ := by decide +kernel

end Idc
