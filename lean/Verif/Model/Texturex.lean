import Verif.Model.Wad
/-!
# TEXTURE1/TEXTURE2 lumps: src/parse/texturex.rs
-/

namespace Idc

/-- src/parse/texturex.rs:10-14 `TEXTURExEntry`. -/
structure TEXTURExEntry where
  name : Bytes
  width : Int16
  height : Int16
  deriving DecidableEq, Repr

/-- `count!(le_i32, n)` as a parser. -/
def countI32 (n : Nat) : Parser (List Int32) := fun i => count leI32 i n i

/-- src/parse/texturex.rs:16-20 `texturex_lump_header` (`numtextures as usize` sign-extends). -/
def texturexLumpHeader : Parser (List Int32) := do
  let numtextures ← leI32
  let offsets ← countI32 (i32AsUsize numtextures)
  pure offsets

/-- src/parse/texturex.rs:22-36 `texturex_lump_entry`. -/
def texturexLumpEntry : Parser TEXTURExEntry := do
  let name ← fixedLengthAscii 8
  let _masked ← leI32
  let width ← leI16
  let height ← leI16
  let _columndirectory ← leI32
  let _patchcount ← leI16
  pure { name, width, height }

/-- `&buf[start..]`. -/
def sliceFrom (b : Bytes) (s : Nat) : Res Bytes :=
  if s ≤ b.length then .ok (b.drop s) else .panic .bounds

/-- src/parse/texturex.rs:41-47, the `for` loop from index `i`. -/
def texturexLoop (buf : Bytes) : Nat → List Int32 → Res (List TEXTURExEntry)
  | _, [] => .ok []
  | i, offset :: offsets =>
    if offset.toInt < 0 then .err (.negativeOffset "TEXTUREx" i offset.toInt)
    else do
      let sub ← sliceFrom buf (i32AsUsize offset)
      let e ← nomToResult "TEXTUREx" buf (texturexLumpEntry sub)
      let es ← texturexLoop buf (i + 1) offsets
      pure (e :: es)

/-- src/parse/texturex.rs:38-49 `parse_texturex_names`. -/
def parseTexturexNames (buf : Bytes) : Res (List TEXTURExEntry) := do
  let offsets ← nomToResult "TEXTUREx header" buf (texturexLumpHeader buf)
  texturexLoop buf 0 offsets

end Idc
