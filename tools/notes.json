{
 "C03": {
  "status": "partial",
  "note": "Classification is exact, but the InvalidMagic part of the claim is false of the code (proved: never returned); a wrong magic gives ParseError."
 },
 "C66": {
  "note": "Exact for stdin. False for a file changed while mapped (C66_file_changed, C66_truncated); proved while the file still starts with its old contents. The operating system is a parameter with the documented behaviour of memmap 0.6.2."
 },
 "C10": {
  "note": "False as stated: MAP+d is accepted as well (C10_plus_accepted). Proved exactly for all other names."
 },
 "C11": {
  "note": "Round trip proved for every name the format generates; the exception MAP+d (see C10) displays as MAP0d."
 },
 "C15": {
  "note": "False of the code: iteration stops at the first incomplete map (C15_bad_map_hides_rest); proved: everything before it is reported."
 },
 "C16": {
  "note": "False only for a map cut off by the end of the directory (C16_truncated_map_yielded); proved for all others."
 },
 "C17": {
  "note": "False of the code: last_index is one past the last lump unless the map ends the directory (C17_last_index_past_end); the exact value is proved."
 },
 "C24": {
  "note": "False of the code: bad or partial records silently end the list (C24_bad_side_dropped, C24_bad_sector_dropped). Proved: nothing is dropped from a lump of complete valid records."
 },
 "C30": {
  "note": "False of the code: a texture offset past the end of the lump panics (slice out of range); proved exactly when it panics, and no panic otherwise."
 },
 "C34": {
  "note": "False of the code: negating -32768 overflows (C34_flip_panics, C34_flip_panics_example). Proved: no panic otherwise."
 },
 "C38": {
  "note": "False of the code: negative types and tags come back plus 2^32 and light outside 0..255 is reduced mod 256 by from_bare (C38_attributes_lost, C38_counterexample); what does survive is proved."
 },
 "C42": {
  "note": "False in general: an outline may end away from its start when vertices have odd degree (C42_open_outline); closed when every vertex has even degree is what is proved."
 },
 "C45": {
  "note": "Exact report proved (C45_counts_partial, C45_no_empty_texture); false as stated for a line whose back ceiling is higher (see C46_wrong_side); debug overflow panics (C45_overflow_panics)."
 },
 "C46": {
  "note": "False of the code: upper part charged to the front side always (C46_wrong_side), opening measured from the lower floor (C46_opening_too_high). Proved where the front ceiling is not lower and floors are level."
 },
 "C50": {
  "note": "False of the code: the cached answer goes stale when a point is added after a query (C50_stale_after_add) and for zero-area outlines after change_orientation (C50_zero_area). Proved for fresh contours and for every history of orientation calls on points of non-zero area, with exact arithmetic."
 },
 "C60": {
  "note": "False in general: the first edge of a later contour can go astray because left_index defaults to 0 (C60_stray_edge). Proved: all vertices and all other edges."
 },
 "C61": {
  "status": "partial",
  "note": "False of the code: the operation is ignored (C61_operation_ignored_partial, for all inputs; C61_intersection_not_empty)."
 },
 "C69": {
  "note": "False of the code: C69_panics gives simple polygons that touch (a corner on an edge) on which compute panics. Proved: no panic, in exact arithmetic and in double precision, on outlines that may share corners and edges but do not meet otherwise (C69_no_panic_partial), and in exact arithmetic on outlines that cross as in C84 (C69_crossing_no_panic_partial)."
 },
 "C62": {
  "note": "Partition and termination for every run (C62_partition, C62_terminates, C62_route_map). It can panic if an area is in no sector (C62_panics_outside); otherwise it succeeds (C62_succeeds, C62_map_succeeds)."
 },
 "C65": {
  "note": "False for maps wider than 32767 (C65_too_wide: release wraps to a negative width, debug panics) and for things outside the lines of a full map (C65_thing_outside); the exact box is proved for everything else."
 },
 "C71": {
  "note": "Exact for every map. Player starts are never drawn green: no thing type of the table is a PlayerStart (C71_no_player_starts)."
 },
 "C58": {
  "note": "Every non-external contour is a hole of exactly one earlier contour; but that one may itself be a hole (C58_hole_of_hole)."
 },
 "C63": {
  "note": "Chunks are connected and maximal with respect to recorded neighbours and holes; because a hole may be recorded as a hole of a hole (C58_hole_of_hole), a level island may end up in another chunk (C63_island_missed)."
 },
 "C72": {
  "note": "Exact for every WAD; with no maps or only UDMF maps nothing is saved and no error reported (C72_no_maps, C72_udmf_ignored)."
 },
 "C73": {
  "note": "Exact list of shapes for every run; a hole that is recorded as a hole of a hole is not drawn (C73_hole_missing)."
 },
 "C74": {
  "note": "Exact for every WAD; a WAD with only MAP00-MAP14 is ignored (C74_low_maps_ignored)."
 },
 "C75": {
  "note": "Exact for every WAD; TEXTURE2 is ignored if TEXTURE1 is present (C75_texture2_ignored), a lump outside the file panics (C75_panics)."
 },
 "C67": {
  "note": "Exact coordinates. False for nearly parallel segments (C67_crossing_missed, C67_overlap_invented: the tolerance test); otherwise exact up to the code's rounding to 1e-7, and exact if the ends and the point are told apart (C67_steady_point) or whole (C67_whole_point); the collinear case is exact."
 },
 "C68": {
  "note": "Exact coordinates. False if one segment starts on the other (C68_start_on_other) or for vertical segments (C68_vertical); proved for all others."
 },
 "C70": {
  "note": "Proved for every input on which the sweep before it ends; termination of the sweep itself is not part of this claim."
 },
 "C76": {
  "note": "Over exact real arithmetic; the containers are any implementation with Lib.Lawful (met by listLib)."
 },
 "C77": {
  "note": "Over exact real arithmetic. The hole rule is what the code does: with two holes above each other in one outline, the upper is listed as a hole of the lower (see C58_hole_of_hole)."
 },
 "C78": {
  "note": "The operating system is a parameter; clap is not modelled."
 },
 "C79": {
  "note": "False of the code: the status is 0 after every reported error (C79_error_status_zero), and an unwritable output makes chart and route panic (C79_unwritable). Proved: without a panic the status is 0, and a successful run has status 0 and no error."
 },
 "C80": {
  "note": "For every arithmetic with the laws of Spec/Double (rounding to 53 bits, monotone, exact comparisons), which are proved of the IEEE binary64 model F64 (Props/F64). An example meets the hypotheses (C80_hypotheses_met, C80_sample)."
 },
 "C81": {
  "note": "In exact real arithmetic, for coordinates that need not be whole (Separate in Spec/Intersect), with the std containers as a lawful oracle. C76's polygons are a special case (Tidy.planar). Samples meet the hypotheses (C81_hypotheses_met, C81_edges_kept_hypotheses_met); where a corner touches the interior of another edge, compute can panic (C69)."
 },
 "C82": {
  "note": "For every arithmetic with the laws of Spec/Double, which are proved of the IEEE binary64 model F64 (Props/F64); the square root only has to be accurate to 51 bits. An example meets the hypotheses (C82_hypotheses_met, C82_sample)."
 },
 "C84": {
  "note": "In exact arithmetic, crossings need not have whole coordinates and edges may partly coincide; Lib.SearchHonest is assumed in addition to Lib.Lawful (see DESIGN.md). C84_same_run is for all modes. In double precision the claim is false (C83); it is also false where a corner is on an edge that no edge meets from the left, and from which an edge goes right above it (C84_touching_above). Examples meet the hypotheses (C84_hypotheses_met, C84_overlap_hypotheses_met, C84_fractions_hypotheses_met, C84_edges_kept_hypotheses_met)."
 },
 "C83": {
  "note": "C83_crossing is for all segments in range; C83_beside and C83_slanted are kernel-evaluated witnesses of inexactness in the binary64 model."
 },
 "C85": {
  "note": "C85_outlines .. C85_holes for outlines as in C81, C85_crossed_* as in C84, C85_double in double precision, C85_double_iff: compute returns in double precision if and only if there is a result as required, and then it is that one. A sample meets the hypotheses (C85_hypotheses_met, C85_crossed_hypotheses_met, C85_double_hypotheses_met, C85_sample); C85_panics, C85_hidden, C85_unbounded are the counterexamples without them."
 },
 "C86": {
  "note": "C86_unique and C86_exact: the requirements (IsResult) characterise the result. C86_library, C86_redrawn, C86_reordered, C86_crossed, C86_double are the consequences. Samples meet the hypotheses (C86_*hypotheses_met, C86_sample)."
 },
 "C87": {
  "note": "C87_moved for outlines as in C81 and C85, C87_crossed as in C84, C87_double in double precision. Samples meet the hypotheses (C87_hypotheses_met, C87_double_hypotheses_met, C87_sample)."
 },
 "C88": {
  "note": "C88_in_one_area, C88_in_no_area and C88_label for outlines as in C81 and C85 (runs that return; C81 and C85 say which do), C88_whole_label and C88_union without RemoveEdges, C88_even_odd for all outlines together, C88_crossed_* as in C84 (also with RemoveEdges, as in C85), C88_double and C88_double_removed in double precision. Samples meet the hypotheses (C88_hypotheses_met, C88_none_hypotheses_met, C88_removed_hypotheses_met, C88_crossed_hypotheses_met); C88_between_holes is a point beside a hole that is listed with another hole."
 },
 "C89": {
  "note": "C89_areas (areas as polygons of their own), C89_one (no neighbors, as one polygon), C89_again (a single polygon) for outlines as in C81 and C85, C89_crossed_* as in C84, C89_double and C89_double_again in double precision. areasOf and ownLabels are in Spec/Again. Samples meet the hypotheses (C89_*_hypotheses_met)."
 },
 "C90": {
  "note": "C90_stretched for outlines as in C81 and C85, C90_crossed as in C84, C90_double in double precision for outlines that do not cross. AxisParallel, stretchAll and KeepOrder are in Spec/Stretched. Samples meet the hypotheses (C90_*_hypotheses_met)."
 },
 "C91": {
  "note": "C91_room and C91_narrow, for exact arithmetic. IsRoom and startPoint are in Spec/Room. C91_hypotheses_met is a hall of 200 by 100, C91_narrow_met a corridor of 24 by 600."
 },
 "C92": {
  "note": "C92_stretched_anyhow and C92_corners, for exact arithmetic (ℝ and ℚ). Grid, OnLines, Exact and ptsArea are in Spec/Grid. C92_hypotheses_met: three rectangles sharing corners and parts of edges, outside what C84 covers."
 },
 "C93": {
  "note": "C93_layout, for exact arithmetic (ℝ and ℚ). checkedCompute is in Spec/Checked, Grid, OnLines and ptsArea in Spec/Grid. C93_hypotheses_met: the three touching rectangles of C92."
 },
 "C94": {
  "note": "C94_suite, for exact arithmetic. IsSuite, suiteAreas, CanClimb, tagSet and StartsIn are in Spec/Suite. In double precision a corner can be off by a rounding error (C83). C94_hypotheses_met: two rooms with a step of 24 units."
 },
 "C95": {
  "note": "C95_begins, C95_level and C95_one_chunk, for any arithmetic and any containers. Separates, ChunksBegin and FullMap.Level are in Spec/Level. C95_hypotheses_met: two rooms with a step of 24 units are one chunk, with 25 units two."
 }
}