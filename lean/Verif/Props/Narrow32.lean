import Verif.Props.Narrow24
/-!
# The checked runs of rooms 32 wide, for C91

The modules import each other so that the evaluations, which take much memory, do not all go on at the same time.
-/

namespace Idc

theorem narrow_32_8 : checkedCompute 1000 (asPolygons ℚ (roomPolys 32 8)) = .ok ⟨[]⟩ := by decide +kernel

theorem narrow_32_16 : checkedCompute 1000 (asPolygons ℚ (roomPolys 32 16)) = .ok ⟨[]⟩ := by decide +kernel

theorem narrow_32_24 : checkedCompute 1000 (asPolygons ℚ (roomPolys 32 24)) = .ok ⟨[]⟩ := by decide +kernel

theorem narrow_32_32 : checkedCompute 1000 (asPolygons ℚ (roomPolys 32 32)) = .ok ⟨[]⟩ := by decide +kernel

theorem narrow_32_100 : checkedCompute 1000 (asPolygons ℚ (roomPolys 32 100)) = .ok ⟨[]⟩ := by decide +kernel

end Idc
