{
 "claims": [
  {
   "property": "C01",
   "status": "proved",
   "theorems": [
    "Idc.C01_parseWad_total"
   ],
   "note": ""
  },
  {
   "property": "C02",
   "status": "proved",
   "theorems": [
    "Idc.C02_parseWad_ok_iff",
    "Idc.C02_parseWad_describes",
    "Idc.C02_describes_unique"
   ],
   "note": ""
  },
  {
   "property": "C03",
   "status": "partial",
   "theorems": [
    "Idc.C03_parseWad_errors_partial",
    "Idc.C03_invalid_magic_false"
   ],
   "note": "Classification is exact, but the InvalidMagic part of the claim is false of the code (proved: never returned); a wrong magic gives ParseError."
  },
  {
   "property": "C04",
   "status": "proved",
   "theorems": [
    "Idc.C04_wad_roundtrip"
   ],
   "note": ""
  },
  {
   "property": "C05",
   "status": "proved",
   "theorems": [
    "Idc.C05_fixedLengthAscii",
    "Idc.C05_name_shape",
    "Idc.C05_after_nul_irrelevant",
    "Idc.C05_padded_name_reads_back",
    "Idc.C05_directory_names"
   ],
   "note": ""
  },
  {
   "property": "C06",
   "status": "proved",
   "theorems": [
    "Idc.C06_extractSlice",
    "Idc.C06_entrySlice",
    "Idc.C06_panic_reachable"
   ],
   "note": ""
  },
  {
   "property": "C07",
   "status": "proved",
   "theorems": [
    "Idc.C07_firstEntry_some",
    "Idc.C07_firstEntry_none"
   ],
   "note": ""
  },
  {
   "property": "C08",
   "status": "proved",
   "theorems": [
    "Idc.C08_iterEntriesBetween"
   ],
   "note": ""
  },
  {
   "property": "C09",
   "status": "proved",
   "theorems": [
    "Idc.C09_iterEntriesBetween_same"
   ],
   "note": ""
  },
  {
   "property": "C10",
   "status": "partial",
   "theorems": [
    "Idc.C10_map_names_partial",
    "Idc.C10_map_names_without_plus",
    "Idc.C10_plus_accepted"
   ],
   "note": "False as stated: MAP+d is accepted as well (C10_plus_accepted). Proved exactly for all other names."
  },
  {
   "property": "C11",
   "status": "partial",
   "theorems": [
    "Idc.C11_parse_display",
    "Idc.C11_parsed_vanilla",
    "Idc.C11_display_parse_partial",
    "Idc.C11_plus_not_roundtrip"
   ],
   "note": "Round trip proved for every name the format generates; the exception MAP+d (see C10) displays as MAP0d."
  },
  {
   "property": "C12",
   "status": "proved",
   "theorems": [
    "Idc.C12_block_contiguous",
    "Idc.C12_hypotheses_met"
   ],
   "note": ""
  },
  {
   "property": "C13",
   "status": "proved",
   "theorems": [
    "Idc.C13_block_format"
   ],
   "note": ""
  },
  {
   "property": "C14",
   "status": "proved",
   "theorems": [
    "Idc.C14_items_partition"
   ],
   "note": ""
  },
  {
   "property": "C15",
   "status": "partial",
   "theorems": [
    "Idc.C15_items_prefix_partial",
    "Idc.C15_bad_map_hides_rest"
   ],
   "note": "False of the code: iteration stops at the first incomplete map (C15_bad_map_hides_rest); proved: everything before it is reported."
  },
  {
   "property": "C16",
   "status": "partial",
   "theorems": [
    "Idc.C16_required_present_partial",
    "Idc.C16_truncated_map_yielded"
   ],
   "note": "False only for a map cut off by the end of the directory (C16_truncated_map_yielded); proved for all others."
  },
  {
   "property": "C17",
   "status": "partial",
   "theorems": [
    "Idc.C17_last_index_partial",
    "Idc.C17_last_index_past_end"
   ],
   "note": "False of the code: last_index is one past the last lump unless the map ends the directory (C17_last_index_past_end); the exact value is proved."
  },
  {
   "property": "C18",
   "status": "proved",
   "theorems": [
    "Idc.C18_items_bounded_ordered_classified"
   ],
   "note": ""
  },
  {
   "property": "C19",
   "status": "proved",
   "theorems": [
    "Idc.C19_archive_ok",
    "Idc.C19_archive_panic"
   ],
   "note": ""
  },
  {
   "property": "C20",
   "status": "proved",
   "theorems": [
    "Idc.C20_routes_agree"
   ],
   "note": ""
  },
  {
   "property": "C21",
   "status": "proved",
   "theorems": [
    "Idc.C21_first_entry_some",
    "Idc.C21_first_entry_none"
   ],
   "note": ""
  },
  {
   "property": "C22",
   "status": "proved",
   "theorems": [
    "Idc.C22_things",
    "Idc.C22_linedefs",
    "Idc.C22_vertexes"
   ],
   "note": ""
  },
  {
   "property": "C23",
   "status": "proved",
   "theorems": [
    "Idc.C23_sidedefs",
    "Idc.C23_sectors",
    "Idc.C23_run_unique"
   ],
   "note": ""
  },
  {
   "property": "C24",
   "status": "partial",
   "theorems": [
    "Idc.C24_bad_side_dropped",
    "Idc.C24_bad_sector_dropped",
    "Idc.C24_nothing_dropped_partial"
   ],
   "note": "False of the code: bad or partial records silently end the list (C24_bad_side_dropped, C24_bad_sector_dropped). Proved: nothing is dropped from a lump of complete valid records."
  },
  {
   "property": "C25",
   "status": "proved",
   "theorems": [
    "Idc.C25_write_parse"
   ],
   "note": ""
  },
  {
   "property": "C26",
   "status": "proved",
   "theorems": [
    "Idc.C26_parse_write",
    "Idc.C26_parse_write_names"
   ],
   "note": ""
  },
  {
   "property": "C27",
   "status": "proved",
   "theorems": [
    "Idc.C27_missing",
    "Idc.C27_panic",
    "Idc.C27_ok",
    "Idc.C27_cases"
   ],
   "note": ""
  },
  {
   "property": "C28",
   "status": "proved",
   "theorems": [
    "Idc.C28_sizes",
    "Idc.C28_lump_sizes"
   ],
   "note": ""
  },
  {
   "property": "C29",
   "status": "proved",
   "theorems": [
    "Idc.C29_ok",
    "Idc.C29_header_truncated",
    "Idc.C29_first_bad",
    "Idc.C29_ok_iff"
   ],
   "note": ""
  },
  {
   "property": "C30",
   "status": "partial",
   "theorems": [
    "Idc.C30_panics",
    "Idc.C30_no_panic_partial"
   ],
   "note": "False of the code: a texture offset past the end of the lump panics (slice out of range); proved exactly when it panics, and no panic otherwise."
  },
  {
   "property": "C31",
   "status": "proved",
   "theorems": [
    "Idc.C31_flip",
    "Idc.C31_flip_directory",
    "Idc.C31_hypotheses_met"
   ],
   "note": ""
  },
  {
   "property": "C32",
   "status": "proved",
   "theorems": [
    "Idc.C32_flip_twice"
   ],
   "note": ""
  },
  {
   "property": "C33",
   "status": "proved",
   "theorems": [
    "Idc.C33_flip_layout"
   ],
   "note": ""
  },
  {
   "property": "C34",
   "status": "partial",
   "theorems": [
    "Idc.C34_flip_panics",
    "Idc.C34_flip_panics_example",
    "Idc.C34_flip_no_panic_partial"
   ],
   "note": "False of the code: negating -32768 overflows (C34_flip_panics, C34_flip_panics_example). Proved: no panic otherwise."
  },
  {
   "property": "C35",
   "status": "proved",
   "theorems": [
    "Idc.C35_from_bare"
   ],
   "note": ""
  },
  {
   "property": "C36",
   "status": "proved",
   "theorems": [
    "Idc.C36_missing_sides",
    "Idc.C36_hypotheses_met"
   ],
   "note": ""
  },
  {
   "property": "C37",
   "status": "proved",
   "theorems": [
    "Idc.C37_accessors_safe",
    "Idc.C37_accessors_panic",
    "Idc.C37_hypotheses_met"
   ],
   "note": ""
  },
  {
   "property": "C38",
   "status": "partial",
   "theorems": [
    "Idc.C38_attributes_partial",
    "Idc.C38_attributes_lost",
    "Idc.C38_counterexample"
   ],
   "note": "False of the code: negative types and tags come back plus 2^32 and light outside 0..255 is reduced mod 256 by from_bare (C38_attributes_lost, C38_counterexample); what does survive is proved."
  },
  {
   "property": "C39",
   "status": "proved",
   "theorems": [
    "Idc.C39_bbox",
    "Idc.C39_bbox_empty",
    "Idc.C39_hypotheses_met"
   ],
   "note": ""
  },
  {
   "property": "C40",
   "status": "proved",
   "theorems": [
    "Idc.C40_player_start",
    "Idc.C40_no_player_start",
    "Idc.C40_hypotheses_met"
   ],
   "note": ""
  },
  {
   "property": "C41",
   "status": "proved",
   "theorems": [
    "Idc.C41_outlines",
    "Idc.C41_outline_points",
    "Idc.C41_hypotheses_met"
   ],
   "note": ""
  },
  {
   "property": "C42",
   "status": "partial",
   "theorems": [
    "Idc.C42_closed_partial",
    "Idc.C42_hypotheses_met",
    "Idc.C42_open_outline"
   ],
   "note": "False in general: an outline may end away from its start when vertices have odd degree (C42_open_outline); closed when every vertex has even degree is what is proved."
  },
  {
   "property": "C43",
   "status": "proved",
   "theorems": [
    "Idc.C43_bare_outlines",
    "Idc.C43_hypotheses_met"
   ],
   "note": ""
  },
  {
   "property": "C44",
   "status": "proved",
   "theorems": [
    "Idc.C44_bare_self_referencing",
    "Idc.C44_self_referencing"
   ],
   "note": ""
  },
  {
   "property": "C45",
   "status": "partial",
   "theorems": [
    "Idc.C45_counts_partial",
    "Idc.C45_no_empty_texture",
    "Idc.C45_overflow_panics",
    "Idc.C45_hypotheses_met"
   ],
   "note": "Exact report proved (C45_counts_partial, C45_no_empty_texture); false as stated for a line whose back ceiling is higher (see C46_wrong_side); debug overflow panics (C45_overflow_panics)."
  },
  {
   "property": "C46",
   "status": "partial",
   "theorems": [
    "Idc.C46_areas_partial",
    "Idc.C46_hypotheses_met",
    "Idc.C46_wrong_side",
    "Idc.C46_opening_too_high"
   ],
   "note": "False of the code: upper part charged to the front side always (C46_wrong_side), opening measured from the lower floor (C46_opening_too_high). Proved where the front ceiling is not lower and floors are level."
  },
  {
   "property": "C47",
   "status": "proved",
   "theorems": [
    "Idc.C47_lookup",
    "Idc.C47_unique",
    "Idc.C47_lookup_examples",
    "Idc.C47_negative"
   ],
   "note": ""
  },
  {
   "property": "C48",
   "status": "proved",
   "theorems": [
    "Idc.C48_tables",
    "Idc.C48_sizes",
    "Idc.C48_flats_kept"
   ],
   "note": ""
  },
  {
   "property": "C49",
   "status": "proved",
   "theorems": [
    "Idc.C49_set_clockwise",
    "Idc.C49_set_counterclockwise",
    "Idc.C49_empty_panics",
    "Idc.C49_hypotheses_met"
   ],
   "note": ""
  },
  {
   "property": "C50",
   "status": "partial",
   "theorems": [
    "Idc.C50_fresh",
    "Idc.C50_orientation_partial",
    "Idc.C50_hypothesis_met",
    "Idc.C50_stale_after_add",
    "Idc.C50_zero_area"
   ],
   "note": "False of the code: the cached answer goes stale when a point is added after a query (C50_stale_after_add) and for zero-area outlines after change_orientation (C50_zero_area). Proved for fresh contours and for every history of orientation calls on points of non-zero area, with exact arithmetic."
  },
  {
   "property": "C51",
   "status": "proved",
   "theorems": [
    "Idc.C51_contour_bbox",
    "Idc.C51_polygon_bbox",
    "Idc.C51_point_ignored"
   ],
   "note": ""
  },
  {
   "property": "C52",
   "status": "proved",
   "theorems": [
    "Idc.C52_segments"
   ],
   "note": ""
  },
  {
   "property": "C53",
   "status": "proved",
   "theorems": [
    "Idc.C53_hole_forest",
    "Idc.C53_nested_squares",
    "Idc.C53_square_in_square",
    "Idc.C53_side_by_side",
    "Idc.C53_second_run_duplicates"
   ],
   "note": ""
  },
  {
   "property": "C54",
   "status": "proved",
   "theorems": [
    "Idc.C54_triangle_area"
   ],
   "note": ""
  },
  {
   "property": "C55",
   "status": "proved",
   "theorems": [
    "Idc.C55_total_preorder",
    "Idc.C55_order",
    "Idc.C55_right_ends_top_first",
    "Idc.C55_new_wellFormed",
    "Idc.C55_hypotheses_met"
   ],
   "note": ""
  },
  {
   "property": "C56",
   "status": "proved",
   "theorems": [
    "Idc.C56_sorted_set",
    "Idc.C56_hypotheses_met"
   ],
   "note": ""
  },
  {
   "property": "C57",
   "status": "proved",
   "theorems": [
    "Idc.C57_neighbors",
    "Idc.C57_hypotheses_met"
   ],
   "note": ""
  },
  {
   "property": "C58",
   "status": "proved",
   "theorems": [
    "Idc.C58_holes",
    "Idc.C58_hole_of_hole"
   ],
   "note": "Every non-external contour is a hole of exactly one earlier contour; but that one may itself be a hole (C58_hole_of_hole)."
  },
  {
   "property": "C59",
   "status": "proved",
   "theorems": [
    "Idc.C59_from_polygons"
   ],
   "note": ""
  },
  {
   "property": "C60",
   "status": "partial",
   "theorems": [
    "Idc.C60_vertices",
    "Idc.C60_edges_partial",
    "Idc.C60_all_edges_removed",
    "Idc.C60_stray_edge",
    "Idc.C60_hypotheses_met"
   ],
   "note": "False in general: the first edge of a later contour can go astray because left_index defaults to 0 (C60_stray_edge). Proved: all vertices and all other edges."
  },
  {
   "property": "C61",
   "status": "partial",
   "theorems": [
    "Idc.C61_operation_ignored_partial",
    "Idc.C61_intersection_not_empty"
   ],
   "note": "False of the code: the operation is ignored (C61_operation_ignored_partial, for all inputs; C61_intersection_not_empty)."
  },
  {
   "property": "C62",
   "status": "proved",
   "theorems": [
    "Idc.C62_partition",
    "Idc.C62_terminates",
    "Idc.C62_succeeds",
    "Idc.C62_route_map",
    "Idc.C62_map_succeeds",
    "Idc.C62_two_rooms",
    "Idc.C62_handles_met",
    "Idc.C62_panics_outside"
   ],
   "note": "Partition and termination for every run (C62_partition, C62_terminates, C62_route_map). It can panic if an area is in no sector (C62_panics_outside); otherwise it succeeds (C62_succeeds, C62_map_succeeds)."
  },
  {
   "property": "C63",
   "status": "proved",
   "theorems": [
    "Idc.C63_connected",
    "Idc.C63_island_missed"
   ],
   "note": "Chunks are connected and maximal with respect to recorded neighbours and holes; because a hole may be recorded as a hole of a hole (C58_hole_of_hole), a level island may end up in another chunk (C63_island_missed)."
  },
  {
   "property": "C64",
   "status": "proved",
   "theorems": [
    "Idc.C64_dilation"
   ],
   "note": ""
  },
  {
   "property": "C65",
   "status": "partial",
   "theorems": [
    "Idc.C65_bare_view_box_partial",
    "Idc.C65_too_wide",
    "Idc.C65_hypotheses_met",
    "Idc.C65_view_box",
    "Idc.C65_thing_outside"
   ],
   "note": "False for maps wider than 32767 (C65_too_wide: release wraps to a negative width, debug panics) and for things outside the lines of a full map (C65_thing_outside); the exact box is proved for everything else."
  },
  {
   "property": "C66",
   "status": "partial",
   "theorems": [
    "Idc.C66_stdin",
    "Idc.C66_opens",
    "Idc.C66_file_partial",
    "Idc.C66_file_changed",
    "Idc.C66_truncated",
    "Idc.C66_empty",
    "Idc.C66_hypotheses_met"
   ],
   "note": "Exact for stdin. False for a file changed while mapped (C66_file_changed, C66_truncated); proved while the file still starts with its old contents. The operating system is a parameter with the documented behaviour of memmap 0.6.2."
  },
  {
   "property": "C67",
   "status": "partial",
   "theorems": [
    "Idc.C67_none_iff_partial",
    "Idc.C67_point_partial",
    "Idc.C67_steady_point",
    "Idc.C67_whole_point",
    "Idc.C67_collinear",
    "Idc.C67_crossing_missed",
    "Idc.C67_overlap_invented",
    "Idc.C67_hypotheses_met"
   ],
   "note": "Exact coordinates. False for nearly parallel segments (C67_crossing_missed, C67_overlap_invented: the tolerance test); otherwise exact up to the code's rounding to 1e-7, and exact if the ends and the point are told apart (C67_steady_point) or whole (C67_whole_point); the collinear case is exact."
  },
  {
   "property": "C68",
   "status": "partial",
   "theorems": [
    "Idc.C68_order_partial",
    "Idc.C68_lawful",
    "Idc.C68_hypotheses_met",
    "Idc.C68_start_on_other",
    "Idc.C68_vertical"
   ],
   "note": "Exact coordinates. False if one segment starts on the other (C68_start_on_other) or for vertical segments (C68_vertical); proved for all others."
  },
  {
   "property": "C69",
   "status": "partial",
   "theorems": [
    "Idc.C69_panics",
    "Idc.C69_crossing_no_panic_partial",
    "Idc.C69_no_panic_partial"
   ],
   "note": "False of the code: C69_panics gives simple polygons that touch (a corner on an edge) on which compute panics. Proved: no panic, in exact arithmetic and in double precision, on outlines that may share corners and edges but do not meet otherwise (C69_no_panic_partial), and in exact arithmetic on outlines that cross as in C84 (C69_crossing_no_panic_partial)."
  },
  {
   "property": "C70",
   "status": "proved",
   "theorems": [
    "Idc.C70_tracing_ends",
    "Idc.C70_hypotheses_met"
   ],
   "note": "Proved for every input on which the sweep before it ends; termination of the sweep itself is not part of this claim."
  },
  {
   "property": "C71",
   "status": "proved",
   "theorems": [
    "Idc.C71_bare_release",
    "Idc.C71_bare_shapes",
    "Idc.C71_bare_total",
    "Idc.C71_bare_succeeds",
    "Idc.C71_chart",
    "Idc.C71_no_player_starts",
    "Idc.C71_chart_bare",
    "Idc.C71_hypotheses_met"
   ],
   "note": "Exact for every map. Player starts are never drawn green: no thing type of the table is a PlayerStart (C71_no_player_starts)."
  },
  {
   "property": "C72",
   "status": "proved",
   "theorems": [
    "Idc.C72_first_map_only",
    "Idc.C72_chart_doom",
    "Idc.C72_chart_hexen",
    "Idc.C72_map_error",
    "Idc.C72_no_maps",
    "Idc.C72_chart_file",
    "Idc.C72_udmf_ignored",
    "Idc.C72_hypotheses_met"
   ],
   "note": "Exact for every WAD; with no maps or only UDMF maps nothing is saved and no error reported (C72_no_maps, C72_udmf_ignored)."
  },
  {
   "property": "C73",
   "status": "proved",
   "theorems": [
    "Idc.C73_drawing",
    "Idc.C73_succeeds",
    "Idc.C73_once",
    "Idc.C73_view_box",
    "Idc.C73_hole_missing",
    "Idc.C73_hypotheses_met"
   ],
   "note": "Exact list of shapes for every run; a hole that is recorded as a hole of a hole is not drawn (C73_hole_missing)."
  },
  {
   "property": "C74",
   "status": "proved",
   "theorems": [
    "Idc.C74_route_doom",
    "Idc.C74_route_file",
    "Idc.C74_route_hexen",
    "Idc.C74_map_error",
    "Idc.C74_low_maps_ignored",
    "Idc.C74_hypotheses_met"
   ],
   "note": "Exact for every WAD; a WAD with only MAP00-MAP14 is ignored (C74_low_maps_ignored)."
  },
  {
   "property": "C75",
   "status": "proved",
   "theorems": [
    "Idc.C75_prints",
    "Idc.C75_map_error",
    "Idc.C75_succeeds",
    "Idc.C75_panics",
    "Idc.C75_texture2_ignored",
    "Idc.C75_example"
   ],
   "note": "Exact for every WAD; TEXTURE2 is ignored if TEXTURE1 is present (C75_texture2_ignored), a lump outside the file panics (C75_panics)."
  },
  {
   "property": "C76",
   "status": "proved",
   "theorems": [
    "Idc.C76_disjoint",
    "Idc.C76_neighbors",
    "Idc.C76_order",
    "Idc.C76_hypotheses_met"
   ],
   "note": "Over exact real arithmetic; the containers are any implementation with Lib.Lawful (met by listLib)."
  },
  {
   "property": "C77",
   "status": "proved",
   "theorems": [
    "Idc.C77_clockwise",
    "Idc.C77_external",
    "Idc.C77_holes",
    "Idc.C77_hypotheses_met",
    "Idc.C77_frame"
   ],
   "note": "Over exact real arithmetic. The hole rule is what the code does: with two holes above each other in one outline, the upper is listed as a hole of the lower (see C58_hole_of_hole)."
  },
  {
   "property": "C78",
   "status": "proved",
   "theorems": [
    "Idc.C78_bad_input",
    "Idc.C78_same_input",
    "Idc.C78_info",
    "Idc.C78_no_subcommand",
    "Idc.C78_saves",
    "Idc.C78_chart_file",
    "Idc.C78_writes_only",
    "Idc.C78_example",
    "Idc.C78_demo"
   ],
   "note": "The operating system is a parameter; clap is not modelled."
  },
  {
   "property": "C79",
   "status": "partial",
   "theorems": [
    "Idc.C79_error_status_zero",
    "Idc.C79_status_partial",
    "Idc.C79_unwritable"
   ],
   "note": "False of the code: the status is 0 after every reported error (C79_error_status_zero), and an unwritable output makes chart and route panic (C79_unwritable). Proved: without a panic the status is 0, and a successful run has status 0 and no error."
  },
  {
   "property": "C80",
   "status": "proved",
   "theorems": [
    "Idc.C80_same",
    "Idc.C80_outlines",
    "Idc.C80_holes",
    "Idc.C80_hypotheses_met",
    "Idc.C80_sample"
   ],
   "note": "For every arithmetic with the laws of Spec/Double (rounding to 53 bits, monotone, exact comparisons), which are proved of the IEEE binary64 model F64 (Props/F64). An example meets the hypotheses (C80_hypotheses_met, C80_sample)."
  },
  {
   "property": "C81",
   "status": "proved",
   "theorems": [
    "Idc.C81_hypotheses_met",
    "Idc.C81_edges_kept_hypotheses_met",
    "Idc.C81_outlines",
    "Idc.C81_turns",
    "Idc.C81_start",
    "Idc.C81_neighbors",
    "Idc.C81_order",
    "Idc.C81_external",
    "Idc.C81_holes",
    "Idc.C81_edges_kept"
   ],
   "note": "In exact real arithmetic, for coordinates that need not be whole (Separate in Spec/Intersect), with the std containers as a lawful oracle. C76's polygons are a special case (Tidy.planar). Samples meet the hypotheses (C81_hypotheses_met, C81_edges_kept_hypotheses_met); where a corner touches the interior of another edge, compute can panic (C69)."
  },
  {
   "property": "C82",
   "status": "proved",
   "theorems": [
    "Idc.C82_same",
    "Idc.C82_outlines",
    "Idc.C82_holes",
    "Idc.C82_hypotheses_met",
    "Idc.C82_sample"
   ],
   "note": "For every arithmetic with the laws of Spec/Double, which are proved of the IEEE binary64 model F64 (Props/F64); the square root only has to be accurate to 51 bits. An example meets the hypotheses (C82_hypotheses_met, C82_sample)."
  },
  {
   "property": "C83",
   "status": "proved",
   "theorems": [
    "Idc.C83_crossing",
    "Idc.C83_hypotheses_met",
    "Idc.C83_beside",
    "Idc.C83_slanted"
   ],
   "note": "C83_crossing is for all segments in range; C83_beside and C83_slanted are kernel-evaluated witnesses of inexactness in the binary64 model."
  },
  {
   "property": "C84",
   "status": "proved",
   "theorems": [
    "Idc.C84_touching_above",
    "Idc.C84_cut",
    "Idc.C84_crossing",
    "Idc.C84_crossing_hypotheses_met",
    "Idc.C84_same_run",
    "Idc.C84_same_result",
    "Idc.C84_outlines",
    "Idc.C84_turns",
    "Idc.C84_start",
    "Idc.C84_neighbors",
    "Idc.C84_order",
    "Idc.C84_external",
    "Idc.C84_holes",
    "Idc.C84_edges_kept",
    "Idc.C84_hypotheses_met",
    "Idc.C84_overlap_hypotheses_met",
    "Idc.C84_edges_kept_hypotheses_met",
    "Idc.C84_fractions_hypotheses_met"
   ],
   "note": "In exact arithmetic, crossings need not have whole coordinates and edges may partly coincide; Lib.SearchHonest is assumed in addition to Lib.Lawful (see DESIGN.md). C84_same_run is for all modes. In double precision the claim is false (C83); it is also false where a corner is on an edge that no edge meets from the left, and from which an edge goes right above it (C84_touching_above). Examples meet the hypotheses (C84_hypotheses_met, C84_overlap_hypotheses_met, C84_fractions_hypotheses_met, C84_edges_kept_hypotheses_met)."
  },
  {
   "property": "C85",
   "status": "proved",
   "theorems": [
    "Idc.C85_outlines",
    "Idc.C85_labels",
    "Idc.C85_neighbors",
    "Idc.C85_external",
    "Idc.C85_holes",
    "Idc.C85_double_iff",
    "Idc.C85_crossed_outlines",
    "Idc.C85_crossed_labels",
    "Idc.C85_crossed_neighbors",
    "Idc.C85_crossed_external",
    "Idc.C85_crossed_holes",
    "Idc.C85_double",
    "Idc.C85_hypotheses_met",
    "Idc.C85_crossed_hypotheses_met",
    "Idc.C85_double_hypotheses_met",
    "Idc.C85_sample",
    "Idc.C85_panics",
    "Idc.C85_hidden",
    "Idc.C85_unbounded"
   ],
   "note": "C85_outlines .. C85_holes for outlines as in C81, C85_crossed_* as in C84, C85_double in double precision, C85_double_iff: compute returns in double precision if and only if there is a result as required, and then it is that one. A sample meets the hypotheses (C85_hypotheses_met, C85_crossed_hypotheses_met, C85_double_hypotheses_met, C85_sample); C85_panics, C85_hidden, C85_unbounded are the counterexamples without them."
  },
  {
   "property": "C86",
   "status": "proved",
   "theorems": [
    "Idc.C86_redrawn",
    "Idc.C86_library",
    "Idc.C86_reordered",
    "Idc.C86_crossed",
    "Idc.C86_double",
    "Idc.C86_hypotheses_met",
    "Idc.C86_crossed_hypotheses_met",
    "Idc.C86_double_hypotheses_met",
    "Idc.C86_sample",
    "Idc.C86_unique",
    "Idc.C86_exact"
   ],
   "note": "C86_unique and C86_exact: the requirements (IsResult) characterise the result. C86_library, C86_redrawn, C86_reordered, C86_crossed, C86_double are the consequences. Samples meet the hypotheses (C86_*hypotheses_met, C86_sample)."
  },
  {
   "property": "C87",
   "status": "proved",
   "theorems": [
    "Idc.C87_moved",
    "Idc.C87_crossed",
    "Idc.C87_double",
    "Idc.C87_hypotheses_met",
    "Idc.C87_double_hypotheses_met",
    "Idc.C87_sample"
   ],
   "note": "C87_moved for outlines as in C81 and C85, C87_crossed as in C84, C87_double in double precision. Samples meet the hypotheses (C87_hypotheses_met, C87_double_hypotheses_met, C87_sample)."
  },
  {
   "property": "C88",
   "status": "proved",
   "theorems": [
    "Idc.C88_even_odd",
    "Idc.C88_crossed_even_odd",
    "Idc.C88_in_one_area",
    "Idc.C88_in_no_area",
    "Idc.C88_label",
    "Idc.C88_whole_label",
    "Idc.C88_union",
    "Idc.C88_crossed_in_one_area",
    "Idc.C88_crossed_in_no_area",
    "Idc.C88_crossed_label",
    "Idc.C88_crossed_whole_label",
    "Idc.C88_double",
    "Idc.C88_double_removed",
    "Idc.C88_hypotheses_met",
    "Idc.C88_none_hypotheses_met",
    "Idc.C88_between_holes",
    "Idc.C88_removed_hypotheses_met",
    "Idc.C88_crossed_hypotheses_met"
   ],
   "note": "C88_in_one_area, C88_in_no_area and C88_label for outlines as in C81 and C85 (runs that return; C81 and C85 say which do), C88_whole_label and C88_union without RemoveEdges, C88_even_odd for all outlines together, C88_crossed_* as in C84 (also with RemoveEdges, as in C85), C88_double and C88_double_removed in double precision. Samples meet the hypotheses (C88_hypotheses_met, C88_none_hypotheses_met, C88_removed_hypotheses_met, C88_crossed_hypotheses_met); C88_between_holes is a point beside a hole that is listed with another hole."
  },
  {
   "property": "C89",
   "status": "proved",
   "theorems": [
    "Idc.C89_areas",
    "Idc.C89_crossed_areas",
    "Idc.C89_one",
    "Idc.C89_crossed_one",
    "Idc.C89_again",
    "Idc.C89_crossed_again",
    "Idc.C89_double",
    "Idc.C89_double_again",
    "Idc.C89_hypotheses_met",
    "Idc.C89_again_hypotheses_met",
    "Idc.C89_crossed_again_hypotheses_met",
    "Idc.C89_crossed_hypotheses_met",
    "Idc.C89_double_hypotheses_met",
    "Idc.C89_double_again_hypotheses_met"
   ],
   "note": "C89_areas (areas as polygons of their own), C89_one (no neighbors, as one polygon), C89_again (a single polygon) for outlines as in C81 and C85, C89_crossed_* as in C84, C89_double and C89_double_again in double precision. areasOf and ownLabels are in Spec/Again. Samples meet the hypotheses (C89_*_hypotheses_met)."
  },
  {
   "property": "C90",
   "status": "proved",
   "theorems": [
    "Idc.C90_hypotheses_met",
    "Idc.C90_crossed_hypotheses_met",
    "Idc.C90_double_hypotheses_met",
    "Idc.C90_sample",
    "Idc.C90_stretched",
    "Idc.C90_crossed",
    "Idc.C90_double"
   ],
   "note": "C90_stretched for outlines as in C81 and C85, C90_crossed as in C84, C90_double in double precision for outlines that do not cross. AxisParallel, stretchAll and KeepOrder are in Spec/Stretched. Samples meet the hypotheses (C90_*_hypotheses_met)."
  },
  {
   "property": "C91",
   "status": "proved",
   "theorems": [
    "Idc.C91_narrow",
    "Idc.C91_narrow_met",
    "Idc.C91_room",
    "Idc.C91_hypotheses_met"
   ],
   "note": "C91_room and C91_narrow, for exact arithmetic. IsRoom and startPoint are in Spec/Room. C91_hypotheses_met is a hall of 200 by 100, C91_narrow_met a corridor of 24 by 600."
  },
  {
   "property": "C92",
   "status": "proved",
   "theorems": [
    "Idc.C92_stretched_anyhow",
    "Idc.C92_corners",
    "Idc.C92_hypotheses_met"
   ],
   "note": "C92_stretched_anyhow and C92_corners, for exact arithmetic (\u211d and \u211a). Grid, OnLines, Exact and ptsArea are in Spec/Grid. C92_hypotheses_met: three rectangles sharing corners and parts of edges, outside what C84 covers."
  },
  {
   "property": "C93",
   "status": "proved",
   "theorems": [
    "Idc.C93_layout",
    "Idc.C93_hypotheses_met"
   ],
   "note": "C93_layout, for exact arithmetic (\u211d and \u211a). checkedCompute is in Spec/Checked, Grid, OnLines and ptsArea in Spec/Grid. C93_hypotheses_met: the three touching rectangles of C92."
  },
  {
   "property": "C94",
   "status": "proved",
   "theorems": [
    "Idc.C94_suite",
    "Idc.C94_hypotheses_met"
   ],
   "note": "C94_suite, for exact arithmetic. IsSuite, suiteAreas, CanClimb, tagSet and StartsIn are in Spec/Suite. In double precision a corner can be off by a rounding error (C83). C94_hypotheses_met: two rooms with a step of 24 units."
  },
  {
   "property": "C95",
   "status": "proved",
   "theorems": [
    "Idc.C95_begins",
    "Idc.C95_level",
    "Idc.C95_one_chunk",
    "Idc.C95_hypotheses_met"
   ],
   "note": "C95_begins, C95_level and C95_one_chunk, for any arithmetic and any containers. Separates, ChunksBegin and FullMap.Level are in Spec/Level. C95_hypotheses_met: two rooms with a step of 24 units are one chunk, with 25 units two."
  }
 ]
}