import Verif.Model.BareOutline
/-!
# `count_textures`: src/parse/map.rs:595-690

`f32` is the type parameter `F`.
-/

namespace Idc

open FloatOps

variable {F : Type} [FloatOps F]

/-- `HashMap<&str, (usize, f32)>` as an association list.  Simplification: a `HashMap` has no order;
theorems only look keys up. -/
abbrev TexCounts (F : Type) := List (Bytes × Nat × F)

/-- src/parse/map.rs:605-607: `entry(tex).or_insert((0, 0.0))`, then both components are increased. -/
def TexCounts.bump (tex : Bytes) (area : F) : TexCounts F → TexCounts F
  | [] => [(tex, 0 + 1, add (ofInt 0) area)]
  | (k, n, a) :: rest => if k = tex then (k, n + 1, add a area) :: rest else (k, n, a) :: TexCounts.bump tex area rest

/-- src/parse/map.rs:602-609, the closure `add`. -/
def addTexture (counts : TexCounts F) (tex : Bytes) (area : F) : TexCounts F :=
  if tex ≠ str "-" then counts.bump tex area else counts

/-- `x as f32` for an `i16`. -/
def i16AsFloat (x : Int16) : F := ofInt x.toInt

/-- src/parse/map.rs:625-665, a line with two sides. -/
def BinMap.countTwoSided (pr : Profile) (m : BinMap) (length : F) (frontid backid : Int16) (counts : TexCounts F) :
    Res (TexCounts F) := do
  let front_side ← index m.sides (i16AsUsize frontid)
  let back_side ← index m.sides (i16AsUsize backid)
  let front_sector ← index m.sectors (i16AsUsize front_side.sector)
  let back_sector ← index m.sectors (i16AsUsize back_side.sector)
  let ceiling_diff ← subI16 pr front_sector.ceiling_height back_sector.ceiling_height
  let (counts, lowest_ceiling) ← (if 0 < ceiling_diff.toInt then
      .ok (addTexture counts front_side.upper_texture (mul length (i16AsFloat ceiling_diff)), back_sector.ceiling_height)
    else do
      let n ← negI16 pr ceiling_diff
      .ok (addTexture counts front_side.upper_texture (mul length (i16AsFloat n)), front_sector.ceiling_height) : Res (TexCounts F × Int16))
  let floor_diff ← subI16 pr front_sector.floor_height back_sector.floor_height
  let (counts, highest_floor) ← (if 0 < floor_diff.toInt then
      .ok (addTexture counts back_side.lower_texture (mul length (i16AsFloat floor_diff)), back_sector.floor_height)
    else do
      let n ← negI16 pr floor_diff
      .ok (addTexture counts front_side.lower_texture (mul length (i16AsFloat n)), front_sector.floor_height) : Res (TexCounts F × Int16))
  let mh ← subI16 pr lowest_ceiling highest_floor
  let middle_height : F := i16AsFloat mh
  if lt (ofInt 0) middle_height then
    pure (addTexture (addTexture counts front_side.middle_texture (mul length middle_height))
      back_side.middle_texture (mul length middle_height))
  else pure counts

/-- src/parse/map.rs:666-684, a line with the one side `id`. -/
def BinMap.countOneSided (pr : Profile) (m : BinMap) (length : F) (id : Int16) (counts : TexCounts F) :
    Res (TexCounts F) := do
  let side ← index m.sides (i16AsUsize id)
  let sector ← index m.sectors (i16AsUsize side.sector)
  let mh ← subI16 pr sector.ceiling_height sector.floor_height
  pure (addTexture counts side.middle_texture (mul length (i16AsFloat mh)))

/-- src/parse/map.rs:611-685, one line. -/
def BinMap.countLine (pr : Profile) (m : BinMap) (counts : TexCounts F) (l : BinLine) : Res (TexCounts F) :=
  if l.front = -1 ∧ l.back = -1 then .ok counts
  else do
    let v0 ← index m.vertices (i16AsUsize l.v0)
    let v1 ← index m.vertices (i16AsUsize l.v1)
    let idx ← subI16 pr v1.x v0.x
    let idy ← subI16 pr v1.y v0.y
    let dx : F := i16AsFloat idx
    let dy : F := i16AsFloat idy
    let length := sqrt (add (mul dx dx) (mul dy dy))
    if l.front ≠ -1 ∧ l.back ≠ -1 then m.countTwoSided pr length l.front l.back counts
    else if l.back = -1 then m.countOneSided pr length l.front counts
    else if l.front = -1 then m.countOneSided pr length l.back counts
    else pure counts

/-- src/parse/map.rs:595-690 `BareBinaryMap::count_textures`. -/
def BinMap.countTextures (pr : Profile) (m : BinMap) : Res (TexCounts F) :=
  forEach (m.countLine pr) m.lines []

end Idc
