import Verif.Props.WallFits
/-!
# The checked runs of rooms 8 wide, for C91
-/

namespace Idc

theorem narrow_8_8 : checkedCompute 1000 (asPolygons ℚ (roomPolys 8 8)) = .ok ⟨[]⟩ := by decide +kernel

theorem narrow_8_16 : checkedCompute 1000 (asPolygons ℚ (roomPolys 8 16)) = .ok ⟨[]⟩ := by decide +kernel

theorem narrow_8_24 : checkedCompute 1000 (asPolygons ℚ (roomPolys 8 24)) = .ok ⟨[]⟩ := by decide +kernel

theorem narrow_8_32 : checkedCompute 1000 (asPolygons ℚ (roomPolys 8 32)) = .ok ⟨[]⟩ := by decide +kernel

theorem narrow_8_100 : checkedCompute 1000 (asPolygons ℚ (roomPolys 8 100)) = .ok ⟨[]⟩ := by decide +kernel

end Idc
