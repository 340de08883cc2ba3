import Verif.Props.Narrow16
/-!
# The checked runs of rooms 24 wide, for C91

The modules import each other so that the evaluations, which take much memory, do not all go on at the same time.
-/

namespace Idc

theorem narrow_24_8 : checkedCompute 1000 (asPolygons ℚ (roomPolys 24 8)) = .ok ⟨[]⟩ := by decide +kernel

theorem narrow_24_16 : checkedCompute 1000 (asPolygons ℚ (roomPolys 24 16)) = .ok ⟨[]⟩ := by decide +kernel

theorem narrow_24_24 : checkedCompute 1000 (asPolygons ℚ (roomPolys 24 24)) = .ok ⟨[]⟩ := by decide +kernel

theorem narrow_24_32 : checkedCompute 1000 (asPolygons ℚ (roomPolys 24 32)) = .ok ⟨[]⟩ := by decide +kernel

theorem narrow_24_100 : checkedCompute 1000 (asPolygons ℚ (roomPolys 24 100)) = .ok ⟨[]⟩ := by decide +kernel

end Idc
