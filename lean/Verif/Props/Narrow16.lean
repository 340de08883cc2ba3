import Verif.Props.Narrow8
/-!
# The checked runs of rooms 16 wide, for C91

The modules import each other so that the evaluations, which take much memory, do not all go on at the same time.
-/

namespace Idc

theorem narrow_16_8 : checkedCompute 1000 (asPolygons ℚ (roomPolys 16 8)) = .ok ⟨[]⟩ := by decide +kernel

theorem narrow_16_16 : checkedCompute 1000 (asPolygons ℚ (roomPolys 16 16)) = .ok ⟨[]⟩ := by decide +kernel

theorem narrow_16_24 : checkedCompute 1000 (asPolygons ℚ (roomPolys 16 24)) = .ok ⟨[]⟩ := by decide +kernel

theorem narrow_16_32 : checkedCompute 1000 (asPolygons ℚ (roomPolys 16 32)) = .ok ⟨[]⟩ := by decide +kernel

theorem narrow_16_100 : checkedCompute 1000 (asPolygons ℚ (roomPolys 16 100)) = .ok ⟨[]⟩ := by decide +kernel

end Idc
