{"id": "C01", "title": "parse_wad never panics", "statement": "For every byte buffer, parse_wad returns Ok or Err; it never panics (64-bit usize).", "quantifier": "every byte string of every length", "why_tests_cant": "The input space is all byte strings; malformed offsets, counts and names combine in unboundedly many ways.", "anchors": ["src/parse/wad.rs:parse_wad", "src/parse/wad.rs:wad_directory", "src/errors.rs:nom_to_result", "src/parse/util.rs:fixed_length_ascii"]}
{"id": "C02", "title": "parse_wad accepts exactly the well-formed WADs", "statement": "parse_wad returns Ok iff the buffer has at least 12 bytes, starts with IWAD or PWAD, the table of numlumps 16-byte rows at infotableofs lies inside the buffer, and every row's 8-byte name field is printable ASCII up to its first NUL; then the header fields and the i-th directory entry are exactly the little-endian values stored at their offsets, and the directory has numlumps entries.", "quantifier": "every byte string", "why_tests_cant": "An iff over all inputs: tests only sample accepted and rejected files.", "anchors": ["src/parse/wad.rs:parse_wad", "src/parse/wad.rs:wad_header", "src/parse/wad.rs:wad_entry", "src/parse/wad.rs:wad_directory"]}
{"id": "C03", "title": "parse_wad error classification", "statement": "Too-short data and a directory that overruns the buffer give TruncatedData (with the stage name), a name field with a bogus byte gives ParseError, and a wrong magic gives the dedicated InvalidMagic error.", "quantifier": "every rejected byte string", "why_tests_cant": "Needs a case split over every way a file can be rejected.", "anchors": ["src/parse/wad.rs:wad_header", "src/parse/wad.rs:parse_wad", "src/errors.rs:nom_to_result"]}
{"id": "C04", "title": "WAD serialise/parse round trip", "statement": "Serialising any list of lumps with valid names (data after a 12-byte header, then the directory) and parsing the bytes gives back the same type, names, order and lump contents.", "quantifier": "every list of lumps of every size that fits in 32-bit offsets", "why_tests_cant": "Quantifies over unboundedly many lump lists.", "anchors": ["src/parse/wad.rs:parse_wad", "src/archive/wad.rs:BareWAD::entry_slice", "programs/src/idchoppers.rs:do_flip"]}
{"id": "C05", "title": "Fixed-width names", "statement": "Every name or texture the parsers return has at most 8 bytes, all printable ASCII (hence valid UTF-8 without NUL); it equals the field up to the first NUL, so bytes after the first NUL never matter, and a NUL-padded name of up to 8 printable bytes reads back unchanged.", "quantifier": "every 8-byte field and every surrounding buffer", "why_tests_cant": "256^8 fields; also the soundness of an unchecked UTF-8 conversion.", "anchors": ["src/parse/util.rs:fixed_length_ascii", "src/parse/wad.rs:wad_entry"]}
{"id": "C06", "title": "Lump slices are exactly the described bytes or a panic", "statement": "entry_slice, extract_slice and first_entry return exactly the bytes [filepos, filepos+size) of the buffer when they lie inside it, and panic exactly when they do not (an accepted WAD may contain such lumps).", "quantifier": "every buffer and every directory entry", "why_tests_cant": "Offsets and sizes range over 2^64 combinations per entry.", "anchors": ["src/archive/wad.rs:BareWAD::entry_slice", "src/archive/wad.rs:BareWADDirectoryEntry::extract_slice", "src/archive/wad.rs:BareWAD::first_entry"]}
{"id": "C07", "title": "first_entry takes the first of repeated names", "statement": "BareWAD::first_entry(name) answers for the earliest directory entry with that exact name, and returns None iff there is none.", "quantifier": "every directory, including repeated names, and every name", "why_tests_cant": "Repeated names at arbitrary positions.", "anchors": ["src/archive/wad.rs:BareWAD::first_entry"]}
{"id": "C08", "title": "iter_entries_between selects exactly the marked regions", "statement": "With distinct markers, iter_entries_between yields, in directory order, exactly the entries that come after some begin marker with no end marker in between (and are not that end marker): regions may repeat, an unclosed region runs to the end, a nested begin marker is itself yielded.", "quantifier": "every directory and every pair of distinct marker names", "why_tests_cant": "All interleavings of markers and entries.", "anchors": ["src/archive/wad.rs:BareWADBetweenIterator::next"]}
{"id": "C09", "title": "iter_entries_between with one marker name", "statement": "If the begin and end marker are the same name, the markers toggle: an entry is yielded iff it is not a marker and an odd number of markers precede it.", "quantifier": "every directory and every marker name", "why_tests_cant": "Parity over unboundedly many markers.", "anchors": ["src/archive/wad.rs:BareWADBetweenIterator::next"]}
{"id": "C10", "title": "Recognised map names", "statement": "A lump name starts a map iff it is E<digit>M<digit> or MAP followed by two decimal digits from 01 to 32; the parsed name carries those numbers.", "quantifier": "every byte string used as a name", "why_tests_cant": "Infinite set of names; number parsing corner cases (sign characters).", "anchors": ["src/parse/mod.rs:vanilla_map_name", "src/parse/mod.rs:mapxx_map_name", "src/parse/mod.rs:exmy_map_name"]}
{"id": "C11", "title": "Map name display round trip", "statement": "Displaying a parsed map name gives back the lump name, and parsing the display of any vanilla map name (E0M0..E9M9, MAP01..MAP32) gives back that name.", "quantifier": "every accepted lump name and every vanilla map name", "why_tests_cant": "Round trip in both directions over all accepted names.", "anchors": ["src/map.rs:MapName", "src/parse/mod.rs:vanilla_map_name"]}
{"id": "C12", "title": "Map blocks are a contiguous run of the standard lumps", "statement": "In every map block the iterator yields, the entry before is the marker, each present lump index names an entry of exactly that lump's name, the present indices follow the marker consecutively in the standard order THINGS..BEHAVIOR, and no lump is claimed twice.", "quantifier": "every directory", "why_tests_cant": "Any arrangement of lump names after a marker.", "anchors": ["src/archive/wad.rs:WADIterator::next", "src/archive/wad.rs:MAP_LUMP_ORDER"]}
{"id": "C13", "title": "Map format of a block", "statement": "A yielded map block is Hexen format iff it contains a BEHAVIOR lump and Doom format otherwise; UDMF maps are never yielded and textmap_index is always None.", "quantifier": "every directory", "why_tests_cant": "Any arrangement of lump names.", "anchors": ["src/archive/wad.rs:WADIterator::next"]}
{"id": "C14", "title": "Iteration partitions the directory", "statement": "As long as no map block lacks a required lump, WAD iteration yields items that cover every directory entry exactly once and in order (as a plain entry, a _START or _END marker, or part of one map block).", "quantifier": "every directory", "why_tests_cant": "Unbounded directories and map layouts.", "anchors": ["src/archive/wad.rs:WADIterator::next", "src/archive/wad.rs:BareWAD::iter"]}
{"id": "C15", "title": "A bad map does not hide the rest of the WAD", "statement": "If a map is missing a required lump, the entries after it are still reported by iter, iter_maps and to_archive.", "quantifier": "every directory with an incomplete map", "why_tests_cant": "Depends on where the incomplete map sits among unboundedly many entries.", "anchors": ["src/archive/wad.rs:WADIterator::next", "src/archive/wad.rs:WADArchive::from_bare"]}
{"id": "C16", "title": "Required lumps are present in yielded maps", "statement": "Every map block yielded has THINGS, LINEDEFS, SIDEDEFS, VERTEXES and SECTORS.", "quantifier": "every directory", "why_tests_cant": "Directories may stop at any point.", "anchors": ["src/archive/wad.rs:WADIterator::next"]}
{"id": "C17", "title": "last_index is the last lump of the map", "statement": "A yielded map block's last_index is the directory index of its last lump.", "quantifier": "every directory", "why_tests_cant": "Depends on what follows the map.", "anchors": ["src/archive/wad.rs:WADIterator::next", "src/archive/wad.rs:WADMapEntryBlock"]}
{"id": "C18", "title": "Iteration is bounded and in order", "statement": "iter() yields at most as many items as the directory has entries and their first indices are strictly increasing; every item classification is by name: a _START suffix, a _END suffix, or neither, and is never a map name.", "quantifier": "every directory", "why_tests_cant": "Termination for all inputs.", "anchors": ["src/archive/wad.rs:WADIterator::next"]}
{"id": "C19", "title": "to_archive preserves contents", "statement": "to_archive yields, in iteration order, one item per map block and plain entry (markers dropped) whose names and bytes equal the directory's, with the WAD's type; it panics iff some lump it copies lies outside the buffer.", "quantifier": "every BareWAD", "why_tests_cant": "All directories, including out-of-range lumps.", "anchors": ["src/archive/wad.rs:WADArchive::from_bare", "src/archive/wad.rs:BareWAD::to_archive"]}
{"id": "C20", "title": "Both map parsing routes agree", "statement": "For every map block, parse_doom_map on the BareWAD and parse_doom_map_from_archive on the corresponding archive item give the same result (same map or same error).", "quantifier": "every BareWAD whose to_archive does not panic, every map in it", "why_tests_cant": "Two separate implementations must agree on all inputs.", "anchors": ["src/parse/map.rs:parse_doom_map", "src/parse/map.rs:parse_doom_map_from_archive", "src/archive/wad.rs:WADArchive::from_bare"]}
{"id": "C21", "title": "WADArchive::first_entry", "statement": "WADArchive::first_entry(name) returns the first non-map entry with that name in archive order, None iff there is none; lumps inside maps are not found.", "quantifier": "every archive and name", "why_tests_cant": "Unbounded archives.", "anchors": ["src/archive/wad.rs:WADArchive::first_entry"]}
{"id": "C22", "title": "Fixed-size record lumps decode positionally", "statement": "THINGS, LINEDEFS and VERTEXES lumps of any length L decode without error to exactly floor(L / record size) records, the k-th being the little-endian decode of bytes [k*size, (k+1)*size); trailing bytes are ignored.", "quantifier": "every lump of every length, both map formats", "why_tests_cant": "All byte strings of all lengths.", "anchors": ["src/parse/map.rs:doom_things_lump", "src/parse/map.rs:hexen_things_lump", "src/parse/map.rs:doom_linedefs_lump", "src/parse/map.rs:hexen_linedefs_lump", "src/parse/map.rs:vertexes_lump"]}
{"id": "C23", "title": "Textured record lumps decode the longest valid prefix", "statement": "SIDEDEFS and SECTORS lumps decode without error to the longest prefix of complete records whose texture names are all valid, each decoded positionally.", "quantifier": "every lump of every length", "why_tests_cant": "All byte strings; interplay of bad names and lengths.", "anchors": ["src/parse/map.rs:sidedefs_lump", "src/parse/map.rs:sectors_lump"]}
{"id": "C24", "title": "A malformed record is reported", "statement": "A SIDEDEFS or SECTORS lump containing a record with a bogus texture byte, or a partial trailing record, makes map parsing fail rather than silently dropping records.", "quantifier": "every lump", "why_tests_cant": "The bad record can be anywhere.", "anchors": ["src/parse/map.rs:sidedefs_lump", "src/parse/map.rs:sectors_lump", "src/parse/map.rs:parse_doom_map"]}
{"id": "C25", "title": "Write then parse is the identity", "statement": "For every list of Doom things, lines, sides, vertices and sectors (names at most 8 printable bytes), parsing the concatenated write_to output gives back the same list.", "quantifier": "every list of records, every field value", "why_tests_cant": "65536 values per field, unbounded lists.", "anchors": ["src/parse/map.rs:BareDoomThing::write_to", "src/parse/map.rs:BareDoomLine::write_to", "src/parse/map.rs:BareSide::write_to", "src/parse/map.rs:BareVertex::write_to", "src/parse/map.rs:BareSector::write_to"]}
{"id": "C26", "title": "Parse then write reproduces the bytes", "statement": "Writing the records parsed from a THINGS, LINEDEFS or VERTEXES lump reproduces the lump's complete records byte for byte; for SIDEDEFS and SECTORS it does so with each name field NUL-filled after its first NUL.", "quantifier": "every lump", "why_tests_cant": "All byte strings.", "anchors": ["src/parse/map.rs:write_to", "src/parse/map.rs:doom_things_lump", "src/parse/map.rs:sidedefs_lump"]}
{"id": "C27", "title": "Map parsing outcome", "statement": "parse_doom_map returns MissingMapLump for the first absent lump in the order VERTEXES, SECTORS, SIDEDEFS, LINEDEFS, THINGS, panics iff a lump before that point is out of bounds, and otherwise succeeds with a Doom map iff the block's format is Doom; no other error occurs.", "quantifier": "every WAD and every map block", "why_tests_cant": "All combinations of missing and out-of-range lumps.", "anchors": ["src/parse/map.rs:parse_doom_map", "src/parse/map.rs:parse_doom_map_from_archive"]}
{"id": "C28", "title": "Written record sizes", "statement": "write_to emits exactly 10, 14, 30, 4 and 26 bytes for things, lines, sides, vertices and sectors whose names have at most 8 bytes, so lump sizes are exact multiples.", "quantifier": "every record value", "why_tests_cant": "All field values.", "anchors": ["src/parse/map.rs:write_to"]}
{"id": "C29", "title": "TEXTUREx decoding", "statement": "parse_texturex_names succeeds iff the count and offset table fit, every offset is non-negative and every entry has 22 readable bytes with a valid name; entry i is decoded at the i-th offset; a negative offset at position i is reported as NegativeOffset(\"TEXTUREx\", i, value) if no earlier entry fails.", "quantifier": "every byte string", "why_tests_cant": "All byte strings.", "anchors": ["src/parse/texturex.rs:parse_texturex_names"]}
{"id": "C30", "title": "parse_texturex_names never panics", "statement": "For every byte buffer parse_texturex_names returns Ok or Err.", "quantifier": "every byte string", "why_tests_cant": "Offsets range over all 32-bit values.", "anchors": ["src/parse/texturex.rs:parse_texturex_names"]}
{"id": "C31", "title": "Flip output is a valid WAD holding the mirrored maps", "statement": "The file flip writes is accepted by parse_wad, contains exactly the Doom-format maps of the input in order, and parsing each map back gives the input map with y and angle negated and each line's endpoints swapped.", "quantifier": "every input WAD whose maps have no coordinate or angle equal to -32768 and whose output fits 32-bit offsets", "why_tests_cant": "Whole-file round trip over all WADs.", "anchors": ["programs/src/idchoppers.rs:do_flip", "src/parse/wad.rs:parse_wad", "src/parse/map.rs:parse_doom_map"]}
{"id": "C32", "title": "Flip is an involution", "statement": "Flipping the flipped WAD gives the maps of the original WAD back (and the same bytes as canonical output).", "quantifier": "every input WAD within the i16 negation range", "why_tests_cant": "Two passes of parse/transform/write over all WADs.", "anchors": ["programs/src/idchoppers.rs:do_flip"]}
{"id": "C33", "title": "Flip lumps are laid out contiguously", "statement": "In flip's output all lumps lie inside the data area, in order, without overlap or gaps, and the directory follows immediately.", "quantifier": "every input WAD", "why_tests_cant": "Layout arithmetic over unboundedly many lumps.", "anchors": ["programs/src/idchoppers.rs:do_flip"]}
{"id": "C34", "title": "Flip never panics on arithmetic", "statement": "Negating coordinates and angles never overflows.", "quantifier": "every map", "why_tests_cant": "Only the single value -32768 fails.", "anchors": ["programs/src/idchoppers.rs:do_flip"]}
{"id": "C35", "title": "from_bare keeps every record", "statement": "Map::from_bare is total and keeps the number and order of sectors, vertices, sides, lines and things, with heights, vertex indices, textures and things' positions unchanged and line index() equal to its position.", "quantifier": "every Doom map", "why_tests_cant": "Unbounded maps, all field values.", "anchors": ["src/map.rs:Map::from_bare"]}
{"id": "C36", "title": "Missing sides are exactly -1", "statement": "A line has a front (back) side iff the bare line's index is not -1; each line is exactly one of zero-, one- or two-sided.", "quantifier": "every Doom map", "why_tests_cant": "All index values.", "anchors": ["src/map.rs:Map::from_bare", "src/map.rs:Line::is_one_sided", "src/map.rs:Line::is_two_sided"]}
{"id": "C37", "title": "Accessors are safe on well-formed maps", "statement": "If all vertex, side and sector indices of the bare map are in range, then start, end, front, back and sector lookups on the full map never panic and return the referenced record; with any other negative index they panic.", "quantifier": "every Doom map", "why_tests_cant": "All index values.", "anchors": ["src/map.rs:BoundLine::start", "src/map.rs:BoundLine::front", "src/map.rs:Map::sector", "src/map.rs:Map::side"]}
{"id": "C38", "title": "Sector attributes survive conversion", "statement": "Tag, special and light of a sector after from_bare equal the bare values.", "quantifier": "every sector record", "why_tests_cant": "All 65536 values per field.", "anchors": ["src/map.rs:Map::from_bare", "src/map.rs:Sector"]}
{"id": "C39", "title": "Map bounding box", "statement": "Map::bbox is the smallest axis-aligned rectangle containing all vertices, and the zero rectangle for a map without vertices.", "quantifier": "every map", "why_tests_cant": "Unbounded vertex sets.", "anchors": ["src/map.rs:Map::bbox"]}
{"id": "C40", "title": "Player start", "statement": "find_player_start returns the position of the first thing with doomednum 1, None iff there is none.", "quantifier": "every map", "why_tests_cant": "Unbounded thing lists.", "anchors": ["src/map.rs:Map::find_player_start"]}
{"id": "C41", "title": "Sector outlines of a full map terminate and use each edge once", "statement": "Map::sector_to_polygons terminates on every map, does not panic if indices are in range, every outline has at least 3 points, consecutive points are joined by boundary edges of that sector, and no edge is used twice over all outlines.", "quantifier": "every map, every sector, every behaviour of floating-point comparison", "why_tests_cant": "Loop over data-dependent graph walks; non-termination and float rounding.", "anchors": ["src/map.rs:Map::sector_to_polygons"]}
{"id": "C42", "title": "Sector outlines are closed", "statement": "Every outline returned by Map::sector_to_polygons closes up: its last point is joined to its first by a boundary edge of the sector.", "quantifier": "every map and sector", "why_tests_cant": "All planar graphs.", "anchors": ["src/map.rs:Map::sector_to_polygons"]}
{"id": "C43", "title": "Bare sector outlines visit each boundary vertex once", "statement": "BareBinaryMap::sector_to_polygons terminates, does not panic if indices are in range, and returns non-empty outlines that together contain each vertex of the sector's boundary lines exactly once, consecutive vertices being joined by a boundary line.", "quantifier": "every map and sector", "why_tests_cant": "Graph walks over unbounded maps.", "anchors": ["src/parse/map.rs:BareBinaryMap::sector_to_polygons"]}
{"id": "C44", "title": "Boundary lines exclude self-referencing lines", "statement": "Lines whose both sides face the same sector contribute to no sector outline.", "quantifier": "every map", "why_tests_cant": "All maps.", "anchors": ["src/parse/map.rs:BareBinaryMap::sector_to_polygons", "src/map.rs:Map::sector_to_polygons"]}
{"id": "C45", "title": "Texture usage counts", "statement": "count_textures never reports the empty texture \"-\", and each texture's count is the number of wall parts (upper, lower, middle) of lines with sides that it is assigned to.", "quantifier": "every well-formed map", "why_tests_cant": "Unbounded maps.", "anchors": ["src/parse/map.rs:BareBinaryMap::count_textures"]}
{"id": "C46", "title": "Texture areas use the visible wall part", "statement": "For a two-sided line the upper part is charged to the side whose ceiling is higher and the middle part uses the height of the opening (lowest ceiling minus highest floor).", "quantifier": "every well-formed map", "why_tests_cant": "All height combinations.", "anchors": ["src/parse/map.rs:BareBinaryMap::count_textures"]}
{"id": "C47", "title": "lookup_thing_type is a function of the number", "statement": "lookup_thing_type(n) returns the unique actor with that doomednum, None iff no actor has it; negative thing numbers (as read from a map) never match.", "quantifier": "every u32", "why_tests_cant": "2^32 numbers.", "anchors": ["src/universe.rs:lookup_thing_type", "src/vanilladoom.rs:DOOM2_ACTORS", "src/map.rs:Map::from_bare"]}
{"id": "C48", "title": "Stock name tables", "statement": "Every name in the stock flat and texture tables is a valid lump name (1 to 8 printable bytes) and no table lists a name twice.", "quantifier": "every table entry", "why_tests_cant": "Finite table, settled by kernel evaluation over all of it.", "anchors": ["src/universe.rs:DOOM1_FLATS", "src/universe.rs:DOOM2_TEXTURES"]}
{"id": "C49", "title": "Orientation setters", "statement": "After set_clockwise (set_counterclockwise) a contour reports clockwise (counterclockwise); the points are the previous points or their reversal; repeating the call changes nothing.", "quantifier": "every contour state with points, every float behaviour", "why_tests_cant": "All contours, cached flag states.", "anchors": ["src/shapeops.rs:Contour::set_clockwise", "src/shapeops.rs:Contour::change_orientation"]}
{"id": "C50", "title": "clockwise() reports the sign of the area", "statement": "clockwise() is true iff the signed area of the current points is negative, whatever operations came before.", "quantifier": "every history of contour operations", "why_tests_cant": "Histories interleaving queries, additions and reversals (a cached value may go stale).", "anchors": ["src/shapeops.rs:Contour::clockwise", "src/shapeops.rs:Contour::add"]}
{"id": "C51", "title": "Contour bounding boxes", "statement": "Contour::bbox is the smallest rectangle containing the contour's points; Polygon::bbox contains every contour whose box has non-zero size.", "quantifier": "every contour and polygon with exactly representable coordinates", "why_tests_cant": "Unbounded point sets.", "anchors": ["src/shapeops.rs:Contour::bbox", "src/shapeops.rs:Polygon::bbox"]}
{"id": "C52", "title": "Contour segments", "statement": "Iterating a contour's segments yields exactly one segment per point, each from a point to its successor, the last returning to the first.", "quantifier": "every contour", "why_tests_cant": "All lengths.", "anchors": ["src/shapeops.rs:Contour::iter_segments", "src/shapeops.rs:ContourSegments"]}
{"id": "C53", "title": "compute_holes builds a consistent hole forest", "statement": "After compute_holes on fresh contours every contour is listed as a hole of at most one other contour, is external iff it is listed nowhere, a hole's recorded orientation is opposite to its parent's, and the point sets are unchanged up to reversal.", "quantifier": "every polygon, every float and container behaviour", "why_tests_cant": "All contour arrangements.", "anchors": ["src/shapeops.rs:Polygon::compute_holes"]}
{"id": "C54", "title": "triangle_signed_area laws", "statement": "With exact coordinates triangle_signed_area is antisymmetric under swaps, invariant under rotation of the arguments and translation, and is zero iff the three points are collinear.", "quantifier": "all coordinate triples", "why_tests_cant": "Infinite domain.", "anchors": ["src/shapeops.rs:triangle_signed_area"]}
{"id": "C55", "title": "Sweep endpoints are totally ordered", "statement": "With exact coordinates the order in which compute processes segment endpoints is a total preorder (antisymmetric results, transitive), so sorting and the event queue are well defined.", "quantifier": "all segments", "why_tests_cant": "Order laws over triples of segments.", "anchors": ["src/shapeops.rs:SweepEndpoint::cmp"]}
{"id": "C56", "title": "The sweep line is a sorted set", "statement": "With a lawful order, the sweep line's insert, remove and neighbour queries behave like a sorted set: after any history it is sorted without duplicates, and the neighbours returned are the greatest smaller and least greater elements.", "quantifier": "every history of operations, every contract-abiding binary search", "why_tests_cant": "Operation histories.", "anchors": ["src/shapeops.rs:SweepLine2"]}
{"id": "C57", "title": "compute's neighbour relation is symmetric", "statement": "In compute's result every contour has one neighbour bit per contour, contour i lists j iff j lists i, and every contour has one from_polygons bit per input polygon.", "quantifier": "every input, every terminating run, every float and container behaviour", "why_tests_cant": "Output invariant over all inputs.", "anchors": ["src/shapeops.rs:compute"]}
{"id": "C58", "title": "compute's holes are consistent", "statement": "In compute's result, every index in a holes list is a contour that is clockwise and not external, each contour appears in at most one holes list and at most once, and a non-external contour appears in exactly one.", "quantifier": "every input, every terminating run", "why_tests_cant": "Output invariant over all inputs.", "anchors": ["src/shapeops.rs:compute"]}
{"id": "C59", "title": "RemoveInterior areas never appear in the result", "statement": "No contour in compute's result claims to come from a polygon passed with mode RemoveInterior, and every contour comes from at least one polygon.", "quantifier": "every input, every terminating run", "why_tests_cant": "Output invariant over all inputs.", "anchors": ["src/shapeops.rs:compute"]}
{"id": "C60", "title": "RemoveEdges polygons contribute no edges", "statement": "Every edge of every contour in compute's result lies on a piece of an input polygon whose mode is not RemoveEdges.", "quantifier": "every input, every terminating run", "why_tests_cant": "Output invariant over all inputs.", "anchors": ["src/shapeops.rs:compute", "src/shapeops.rs:is_in_result"]}
{"id": "C61", "title": "compute honours the requested operation", "statement": "compute(polygons, Intersection) and compute(polygons, Union) give the respective boolean operation.", "quantifier": "every input", "why_tests_cant": "All polygon pairs.", "anchors": ["src/shapeops.rs:compute", "src/shapeops.rs:BooleanOpType"]}
{"id": "C62", "title": "Route chunks partition the reachable contours", "statement": "The route flood fill puts every contour reachable from the player start through neighbour (or hole-neighbour) links in exactly one chunk, no other contour in any chunk, and terminates.", "quantifier": "every contour graph and every height/tag assignment", "why_tests_cant": "Graph search over all graphs.", "anchors": ["programs/src/idchoppers.rs:route_map_as_svg"]}
{"id": "C63", "title": "Route chunks are traversable", "statement": "Each contour of a chunk other than its seed was entered from an earlier contour of the same chunk with equal tags, non-blocking lines and a floor difference of at most 24.", "quantifier": "every contour graph", "why_tests_cant": "Graph search over all graphs.", "anchors": ["programs/src/idchoppers.rs:route_map_as_svg"]}
{"id": "C64", "title": "Line dilation is the player's forbidden zone", "statement": "The hexagon drawn around a line contains exactly the points whose axis-aligned 32x32 player box (half-width 16) touches the line segment.", "quantifier": "all line endpoints", "why_tests_cant": "Infinite plane.", "anchors": ["programs/src/idchoppers.rs:route_map_as_svg", "programs/src/idchoppers.rs:bare_map_as_svg"]}
{"id": "C65", "title": "SVG view box covers the map", "statement": "The viewBox computed for a bare map covers every vertex and every thing.", "quantifier": "every map", "why_tests_cant": "Unbounded maps.", "anchors": ["programs/src/idchoppers.rs:bare_map_as_svg"]}
{"id": "C66", "title": "InputBuffer returns the bytes read", "statement": "bytes() returns exactly the contents of stdin or of the file at open time.", "quantifier": "every input stream and file", "why_tests_cant": "Operating-system behaviour (mmap, concurrent modification).", "anchors": ["src/input_buffer.rs:InputBuffer"]}
{"id": "C67", "title": "Crossing detection", "statement": "With exact coordinates intersect_segments reports None for two segments that are not nearly parallel exactly if they have no point in common, and a reported point is their common point.", "quantifier": "all pairs of segments", "why_tests_cant": "Four real parameters; the tolerance makes boundary cases unreachable by samples.", "anchors": ["src/shapeops.rs:intersect_segments"]}
{"id": "C68", "title": "Segments are ordered bottom to top", "statement": "With exact coordinates the order of two segments of the sweep line that do not cross, above a common x, is their order by y there.", "quantifier": "all pairs of non-crossing segments", "why_tests_cant": "All pairs of segments and all common x.", "anchors": ["src/shapeops.rs:SweepSegment::cmp"]}
{"id": "C69", "title": "compute does not panic", "statement": "compute returns a result for all simple polygons.", "quantifier": "all lists of simple polygons", "why_tests_cant": "All inputs; touching and overlapping configurations are unbounded.", "anchors": ["src/shapeops.rs:compute"]}
{"id": "C70", "title": "Tracing contours terminates", "statement": "Once the sweep has ended, walking around the contours of the result always ends too, with a result that does not depend on how long one waits: every endpoint is visited at most once.", "quantifier": "every input, every container behaviour that ends", "why_tests_cant": "No bound on segments.", "anchors": ["src/shapeops.rs:compute", "src/shapeops.rs:find_next_segment"]}
{"id": "C71", "title": "The chart shows exactly the map", "statement": "The SVG chart of a map contains one shape for every line, every thing and every sector, in file order, each at the coordinates of the map (y negated) and with the look that its record calls for; drawing a map whose coordinates are in bounds never fails.", "quantifier": "all maps (Doom full maps and bare binary maps of both formats), all overflow profiles", "why_tests_cant": "Any number of lines, things and sectors, any coordinates and any combination of missing sides; a finite set of example maps cannot show that nothing is dropped or misplaced.", "anchors": ["programs/src/idchoppers.rs:bare_map_as_svg", "programs/src/idchoppers.rs:map_as_svg"]}
{"id": "C72", "title": "chart saves the first map", "statement": "The chart command draws and saves exactly one file: the chart of the first map of the WAD that can be told to be a map; the maps after it make no difference, an error in parsing it is returned and nothing is saved, and with no map at all (or only UDMF maps) nothing is saved and no error is reported.", "quantifier": "all WADs, all overflow profiles", "why_tests_cant": "All WADs, with any number of maps of any content after the first one.", "anchors": ["programs/src/idchoppers.rs:do_chart"]}
{"id": "C73", "title": "The route drawing shows exactly the areas", "statement": "The drawing of the route finder's result has one shape for every external contour, in order, with the outline of the contour and of its holes, its distance and the sectors and lines it is part of; no contour is drawn twice; the view box is the smallest box around the map's vertices with a margin of 32; drawing fails only if the route finder does.", "quantifier": "all maps, all results of the route finder, every container behaviour", "why_tests_cant": "Any number of areas and holes in any nesting; a hole lost in one configuration does not show in others.", "anchors": ["programs/src/idchoppers.rs:route_map_as_svg"]}
{"id": "C74", "title": "route saves the first map from MAP15 on", "statement": "The route command saves exactly one drawing: that of the first map whose name is not MAP00 to MAP14; all maps before it are skipped without being parsed, a parse error of it is returned, and if it is a Hexen map nothing is saved.", "quantifier": "all WADs, every container behaviour", "why_tests_cant": "All WADs with any number of maps before and after the one that counts.", "anchors": ["programs/src/idchoppers.rs:do_route"]}
{"id": "C75", "title": "info lists the whole WAD", "statement": "The info command prints the WAD's type and number of lumps, then one entry per lump outside maps and per map in directory order, then the textures; it fails only at a map that cannot be parsed (after printing all before it) and succeeds whenever all lumps lie in the file, all maps parse and the texture lists are well formed.", "quantifier": "all WADs, every iteration order of the texture table", "why_tests_cant": "All WADs, and all orders in which a hash map may be iterated.", "anchors": ["programs/src/idchoppers.rs:do_info"]}
{"id": "C76", "title": "compute is exact for outlines that do not touch", "statement": "For polygons (modes Normal and RemoveInterior) whose outlines neither cross nor touch themselves or each other, with whole coordinates and no two edges nearly but not quite parallel, compute ends and its outlines are exactly: every outline of the input, counterclockwise if the area just inside is wanted and clockwise if the area just outside is, each once, starting at the leftmost corner, with the flags of exactly the polygons that area belongs to by the even-odd rule (wanted: in some polygon, and in none whose interior is removed). They are ordered by their first corners, and two are neighbours iff they go around the same input outline in opposite directions.", "quantifier": "all such lists of polygons, nested to any depth, any number of corners; every lawful implementation of the standard containers; exact arithmetic", "why_tests_cant": "All arrangements of outlines, all sizes and nesting depths.", "anchors": ["src/shapeops.rs:compute", "src/shapeops.rs:SweepSegment", "src/shapeops.rs:SweepEndpoint", "src/shapeops.rs:SegmentPacket"]}
{"id": "C77", "title": "orientation, external outlines and holes are right where outlines do not touch", "statement": "For an outline of any real corners that neither crosses nor touches itself, clockwise() and counterclockwise() never panic, are opposite, and answer according to whether the outline turns right or left at its leftmost corner. For polygons as in C76, an outline of compute's result is marked external exactly if it is counterclockwise, and outline j is listed as a hole of outline i exactly if j is clockwise and the first input edge below its first corner is an edge which i follows from left to right.", "quantifier": "all outlines that do not touch themselves (any real coordinates, any number of corners); all lists of polygons of C76, every lawful implementation of the standard containers", "why_tests_cant": "All simple outlines (the sign of a sum over all corners agrees with the turn at one corner), all nestings.", "anchors": ["src/shapeops.rs:Contour::clockwise", "src/shapeops.rs:Contour::counterclockwise", "src/shapeops.rs:compute"]}
{"id": "C78", "title": "the program as a whole", "statement": "The program reads the file named (standard input for `-`; it makes no difference which), reports an input that cannot be read or is not a WAD and then does nothing else, and otherwise does exactly what the subcommand says: info prints, chart and route save their document under the given name, shapeops its demonstration. It writes no other file.", "quantifier": "all inputs, command lines, file systems, permissions", "why_tests_cant": "All inputs and all states of the file system.", "anchors": ["programs/src/idchoppers.rs:main", "programs/src/idchoppers.rs:run", "programs/src/idchoppers.rs:do_shapeops"]}
{"id": "C79", "title": "failures show in the exit status", "statement": "The exit status of the program is 0 exactly if it did what was asked; problems with the input or the output file are reported, not panics.", "quantifier": "all inputs, command lines, file systems, permissions", "why_tests_cant": "All inputs and all states of the file system.", "anchors": ["programs/src/idchoppers.rs:main", "programs/src/idchoppers.rs:run", "programs/src/idchoppers.rs:do_chart"]}
{"id": "C80", "title": "double precision makes no difference where outlines do not touch", "statement": "For polygons as in C76 with whole coordinates between -32768 and 32768 (a map's), at most 2^21 corners in an outline and a bit more room at the angles, compute in IEEE double precision terminates without a panic and returns exactly the result that exact arithmetic gives: the same outlines in the same order, the same corners bit by bit, the same holes, neighbors and polygon flags. So what C76 and C77 say holds of the program as it runs.", "quantifier": "all lists of such polygons, any number of outlines and corners, any nesting, any modes but RemoveEdges, every lawful implementation of the standard containers, every arithmetic that rounds to 53 bits", "why_tests_cant": "All polygons; rounding errors depend on every coordinate, and one wrong comparison changes the whole result.", "anchors": ["src/shapeops.rs:compute", "src/shapeops.rs:intersect_segments", "src/shapeops.rs:SweepSegment::cmp"]}
{"id": "C81", "title": "compute cuts the plane correctly where outlines share corners and edges", "statement": "For polygons whose outlines do not cross, but may share corners and whole edges with each other and may touch themselves at corners (two edges coincide or meet at most in ends of both; no two edges nearly parallel; corners and edges are told apart by the code's tolerances: coordinates are whole numbers, or at least 10^-9 from any, with corners at least 3.2*10^-8 apart and edges clearly off other corners), compute terminates without a panic. The outlines of the result consist of exactly those edges, in the direction, that have an area of the result on their left (by the even-odd rule of each polygon; areas of no polygon and of a removed interior are not part of the result), each edge once; each outline is labelled with exactly the polygons its area belongs to; at each corner it goes on along the first edge clockwise from where it came from; it starts at its leftmost corner, which it visits once. Outlines come in the order of their leftmost corners and, there, counterclockwise. Two outlines are neighbors exactly if they go along one edge in opposite directions. An outline is external exactly if its signed area is positive, and otherwise it is a hole of exactly the outlines that go rightwards along the next edge below its first corner. If all polygons are normal, every edge of the input is part of some outline.", "quantifier": "all lists of polygons, of any number of outlines and corners, corners of any degree, edges shared by any number of polygons, any modes but RemoveEdges, every lawful implementation of the standard containers", "why_tests_cant": "All arrangements; the flags of an area depend on the whole history of the sweep, and the order of edges at a corner on all of them.", "anchors": ["src/shapeops.rs:compute", "src/shapeops.rs:SweepSegment::cmp", "src/shapeops.rs:Contour"]}
{"id": "C82", "title": "double precision makes no difference where outlines share corners and edges", "statement": "For polygons as in C81 with whole coordinates between -32768 and 32768 (a map's), at most 2^20 corners in all and a bit more room at the angles, compute in IEEE double precision terminates without a panic and returns exactly the result that exact arithmetic gives: the same outlines in the same order, the same corners bit by bit, the same holes, neighbors and polygon flags. In particular the choice of the next edge at a corner, made by comparing quotients of dot products and square roots, is always the right one. So what C81 says holds of the program as it runs.", "quantifier": "all lists of such polygons, any number of outlines, corners of any degree, edges shared by any number of polygons, any modes but RemoveEdges, every lawful implementation of the standard containers, every arithmetic that rounds to 53 bits", "why_tests_cant": "All polygons; rounding errors depend on every coordinate, and one wrong comparison changes the whole result.", "anchors": ["src/shapeops.rs:compute", "src/shapeops.rs:intersect_segments", "src/shapeops.rs:SweepSegment::cmp"]}
{"id": "C83", "title": "crossings in double precision: always found, nearly where they are", "statement": "For two segments with whole coordinates between -32768 and 32768 that are not nearly parallel, intersect_segments in IEEE double precision reports a point exactly if the segments have a point in common, never an overlap, and the point is within 10^-7 of the common one in both coordinates. It is not exact, though, even if the common point has whole coordinates: the rounding of almost whole coordinates only works for those slightly above a whole number. So compute can return slanted edges for crossing axis-parallel rectangles.", "quantifier": "all pairs of such segments (the inexact cases are witnesses)", "why_tests_cant": "All segments: four rounded operations, four snapping tests and the rounding to whole numbers; an error anywhere may miss a crossing or move it.", "anchors": ["src/shapeops.rs:intersect_segments", "src/shapeops.rs:compute"]}
{"id": "C84", "title": "compute cuts crossing outlines at their crossings", "statement": "For polygons whose outlines may also cross each other and themselves (any number of edges may cross in a point, and crossings need not be at whole coordinates, but they are told apart from other corners and crossings as in C81; a corner may be on another edge if an edge comes to this corner from the left, or starts there and goes to the right along or below the other edge; an edge may run along a part of another, but no corner or crossing is inside two edges on the same line; otherwise as in C81), compute in exact arithmetic does exactly what it does for the same polygons with corners added where edges cross or touch: the same outlines in the same order, the same corners, holes, neighbors and polygon flags. If no polygon has mode RemoveEdges, it terminates without a panic, and the outlines of the result consist of exactly those pieces of edges, between corners and crossings, that have an area of the result on their left (by the even-odd rule of the polygons as given), each once; each outline is labelled with the polygons its area belongs to, starts at its leftmost corner and at each corner or crossing goes on along the first piece clockwise; neighbors, external outlines and holes are as in C81; and if all polygons are normal, no piece of an edge is lost.", "quantifier": "all lists of such polygons, any number of outlines, corners, and crossings per edge, any modes (without RemoveEdges from the second sentence on), every lawful implementation of the standard containers", "why_tests_cant": "All arrangements; crossings are found in the order of the sweep, each splits segments that are already in the queue and in the sweep line, sometimes only after the sweep has passed the point, and every missed or repeated split changes the whole result.", "anchors": ["src/shapeops.rs:compute", "src/shapeops.rs:handle_intersections", "src/shapeops.rs:intersect_segments"]}
{"id": "C85", "title": "compute leaves out the edges of RemoveEdges polygons", "statement": "For polygons as in C81 or C84 of which some have mode RemoveEdges, such that (1) an edge that such a polygon has in common with one without is also an edge of a later polygon without, and (2) leaving out an edge joins no area of the result with one that is not in it: the outlines of the result go along exactly the edges of the other polygons that have an area of the result on their left, each once, each from its leftmost corner, at each corner along the first kept edge clockwise, in the order of their leftmost corners. compute returns them, unless one of them is clockwise and at its leftmost corner the next edge below is one that is left out: then, and only then, it panics. An outline is labelled with all polygons that an area along its left side belongs to, also those whose edges are left out; neighbors, external outlines and holes are as in C81. In double precision the result is the same, bit by bit, under the conditions of C82. Without (1) the result depends on the order of the polygons, and without (2) compute may panic (counterexamples).", "quantifier": "all lists of such polygons with any modes, any number of outlines and corners, every lawful implementation of the standard containers", "why_tests_cant": "All arrangements: whether a removed edge is next below a hole, or coincides with a kept one, depends on everything else in the arrangement.", "anchors": ["src/shapeops.rs:compute", "src/shapeops.rs:is_in_result", "src/shapeops.rs:PolygonMode"]}
{"id": "C86", "title": "compute's result is determined by the geometry", "statement": "For polygons as in C81 or C85 the requirements on the result (which outlines, in which order, with which corners, labels, neighbors, holes in increasing order, external and clockwise flags) have at most one solution; compute returns it, and if there is none it panics. So, in exact arithmetic: the boolean operation asked for and the implementation of the standard containers make no difference; drawing the same polygons with their outlines in another order, beginning at other corners or in the opposite direction makes no difference, not even for outlines that cross (C84); and giving the polygons in another order only changes the order of the labels. In double precision the redrawn polygons give the same result bit by bit under the conditions of C82.", "quantifier": "all lists of such polygons, all redrawings and reorderings of them, any two lawful implementations of the standard containers, any two of the four boolean operations", "why_tests_cant": "There are infinitely many drawings of the same polygons and the sweep handles their segments in different orders; that no order shows in the result is about all of them.", "anchors": ["src/shapeops.rs:compute", "src/shapeops.rs:SweepSegment", "src/shapeops.rs:connect_edges", "src/shapeops.rs:BooleanOpType"]}
{"id": "C87", "title": "moving and scaling the map moves and scales compute's result", "statement": "For polygons as in C81, C84 or C85: scaling all coordinates by the same positive factor and moving all polygons by the same vector (so that corners and edges are still told apart) gives the same outlines, scaled and moved; they are in the same order, begin at the same corners and have the same labels, neighbors, holes and flags, and if compute panics it does so in both cases. This holds in exact arithmetic, with any implementation of the containers; and in double precision, for coordinates as in a map before and after (C82), where the moved result is exact.", "quantifier": "all lists of such polygons, all factors and vectors, any two lawful implementations of the standard containers, any two boolean operations", "why_tests_cant": "The code compares with absolute tolerances and computes with coordinates of any magnitude; that none of these comparisons comes out differently elsewhere on the map is about all polygons and all vectors.", "anchors": ["src/shapeops.rs:compute", "src/shapeops.rs:intersect_segments", "src/shapeops.rs:triangle_signed_area", "src/shapeops.rs:SweepSegment", "src/shapeops.rs:connect_edges"]}
{"id": "C88", "title": "every point lies in exactly one area of compute's result, with the right label", "statement": "For polygons as in C81, C84 or C85, and every point of the plane that is on none of their edges: call its flags the list of polygons that it is inside of, by the even-odd rule. If it is inside of at least one polygon and of none with RemoveInterior, then it lies in the area of exactly one external outline of compute's result - inside of the outline, but of none of its holes, nor of the holes that are in turn listed with those - and otherwise in none. The label (from_polygons) of that outline lists exactly the polygons that the point is inside of; of polygons with RemoveEdges it says only whether they are on the inside of some edge of the outline. So with normal polygons only, the areas together are the union of the polygons, without overlap. The same in double precision for coordinates as in a map (C82). All outlines of the result taken together, a point is inside of it by the even-odd rule exactly in the first case.", "quantifier": "all lists of such polygons, all points off the edges, any lawful implementation of the standard containers, any boolean operation", "why_tests_cant": "That external outlines and their lists of holes cover the plane without gap or overlap is a statement about uncountably many points for each of infinitely many inputs, and relates the order of outlines, their direction, the hole lists and the labels to each other.", "anchors": ["src/shapeops.rs:compute", "src/shapeops.rs:connect_edges", "src/shapeops.rs:Contour", "src/shapeops.rs:Polygon", "src/shapeops.rs:handle_start_event"]}
{"id": "C89", "title": "compute leaves the areas of its results as they are", "statement": "For polygons as in C81, C84 or C85, take the areas of compute's result - each external outline with the holes listed for it, the holes listed for those, and so on - as polygons of their own, all Normal, and give them to compute again: it returns the same outlines in the same order, beginning at the same corners, with the same holes, neighbors and external and clockwise flags, and each outline is labelled with its own area alone. If no outline of the result is a neighbor of another, this also holds for the result as a single polygon; in particular, what compute makes of a single Normal polygon, even one that crosses itself, it returns unchanged, labels included. For whole coordinates as in a map (C82) and polygons that do not cross this holds in double precision, bit by bit.", "quantifier": "all lists of polygons as in C81, C84 or C85, any lawful implementation of the standard containers, any boolean operation asked for in either run", "why_tests_cant": "A test can feed back the results for a few polygons; that there is no result whose outlines the second run would cut, join, order or nest differently takes a proof about all arrangements of polygons.", "anchors": ["src/shapeops.rs:compute", "src/shapeops.rs:connect_edges", "src/shapeops.rs:Contour", "src/shapeops.rs:Polygon"]}
{"id": "C90", "title": "for polygons with horizontal and vertical edges only the order of the coordinates matters", "statement": "For polygons as in C81, C84 or C85 all of whose edges are horizontal or vertical, replace the first coordinates by others in the same order, and the second coordinates as well (without bringing points so close together that they are no longer told apart). Then compute returns the same outlines with the coordinates replaced in the same way, in the same order, beginning at the same corners, with the same labels, holes, neighbors and external and clockwise flags; and if it panics for one, it panics for the other. For whole coordinates as in a map (C82) and polygons that do not cross this holds in double precision, bit by bit.", "quantifier": "all lists of polygons as in C81, C84 or C85 with horizontal and vertical edges, all pairs of functions that keep the order of the coordinates that occur, any lawful implementation of the standard containers, any boolean operation asked for in either run", "why_tests_cant": "A test can stretch a few plans; areas and distances change under the replacement, and that none of the sweep's decisions depends on them other than through the order of coordinates takes a proof for all plans and all replacements.", "anchors": ["src/shapeops.rs:compute", "src/shapeops.rs:connect_edges", "src/shapeops.rs:compare_segments", "src/shapeops.rs:Contour", "src/shapeops.rs:Polygon"]}
{"id": "C91", "title": "the route finder finds exactly the room, less 16 units along each wall, and nothing in a narrow one", "statement": "Take a map that is one rectangular room with whole coordinates, drawn as four one-sided lines, more than 32 units wide and high and not extremely narrow (up to about 50000 units long, less if it is hardly wider than 32). Whatever the heights, textures, flags, specials and things are, the route command's route map has exactly one area: the rectangle 16 units inside the walls on all sides, with no holes and no neighbours, labelled as inside the sector and outside the zones of all four walls. The area is reached, as chunk 1, if the first player start is in it (or, if there is none, the origin), and is unreached otherwise, with no chunks. Nothing panics. In a room at most 32 units wide or high (and at most 3130 units long) the route map has no area at all and nothing is reached, wherever the player starts.", "quantifier": "all rectangular rooms with whole coordinates of the sizes stated, all sector, line and side data, all lists of things, any lawful implementation of the standard containers", "why_tests_cant": "A test can try a few rooms; here the outline of the sector, the four dilated walls, all their crossings, the sweep, the contours, their labels and the flood fill are followed for every position and size at once.", "anchors": ["programs/src/idchoppers.rs:route_map_as_svg", "src/shapeops.rs:compute", "src/map.rs:sector_to_polygons", "src/map.rs:find_player_start"]}
{"id": "C92", "title": "polygons with horizontal and vertical edges can be stretched however they touch", "statement": "Take any polygons with whole coordinates and horizontal and vertical edges, in any modes, which may overlap, share corners or parts of edges, cross or coincide in any way. If the polygon operation succeeds on them, then it succeeds, with exact arithmetic, on the polygons whose coordinates are replaced by others in the same order (first and second coordinates separately, and not so uneven that the code's tolerance for lines being the same comes in), and gives the same result with the coordinates replaced: the same contours in the same order, holes, labels and neighbours, provided that the contours of the result keep their orientation. And no corner of the result has a coordinate that no corner of a polygon has.", "quantifier": "all such polygons, all replacements of coordinates, all operations, any behaviour of the standard containers, two exact arithmetics", "why_tests_cant": "A test can try one layout in a few sizes; this says one layout stands for all its sizes, and it covers the touching and coinciding edges that the general results about well-placed polygons exclude.", "anchors": ["src/shapeops.rs:compute", "src/shapeops.rs:intersect_segments", "src/shapeops.rs:handle_intersections"]}
{"id": "C93", "title": "one checked run settles a layout for all sizes and all lawful containers", "statement": "Take polygons with whole coordinates and horizontal and vertical edges, in any modes, touching and overlapping in any way, and run the polygon operation on them once with exact arithmetic and sorted lists as containers, checking on the way that every list that is searched is ordered and that whenever an endpoint is taken from the queue no other one compares equal to it, unless handling it has no effect. If that run succeeds, then with every implementation of the heap, the binary search and the sort that keeps the standard library's promises the operation terminates, does not panic, and returns the same result; and so it does for all replacements of the coordinates by others in the same order (as in C92), with the coordinates of the result replaced.", "quantifier": "all such polygons, all lawful implementations of the containers, all replacements of coordinates, all operations", "why_tests_cant": "A test runs with one implementation of the containers and in one size; the order of equal elements and the probes of a binary search are not specified by the standard library.", "anchors": ["src/shapeops.rs:compute", "src/shapeops.rs:SweepLine2", "src/shapeops.rs:handle_intersections"]}
{"id": "C94", "title": "two rooms side by side: what the route finder says can be walked", "statement": "Take a map that is two rectangular rooms with whole coordinates side by side, of the same height and each more than 32 units wide (and not extremely narrow), with one-sided walls around and one two-sided line between them. Whatever the other data are, the route map has exactly three areas: the left room less 16 units along its walls and along the opening, the strip within 16 units of the opening, and the right room likewise; the strip is the neighbour of both rooms, which are not neighbours of each other, and the labels are right. The chunks are exactly these. Starting in the left room, the strip is in the same chunk if and only if the line does not block players, the right floor is at most 24 units above the left one and the right sector has no tag the left one has not (0 and 13 do not count); the right room is in the same chunk as the strip if and only if the left floor is at most 24 units above the right one and the left sector has no tag the right one has not. Otherwise a new chunk begins, with the next higher number. Starting in the right room it is the same with the rooms exchanged; starting in the strip the line does not matter; starting elsewhere nothing is reached. Nothing panics.", "quantifier": "all such maps of the sizes stated, all sector, line and side data, all lists of things, any lawful implementation of the standard containers", "why_tests_cant": "A test can try a few sizes, floor heights and tags; here all positions and sizes of the rooms, all heights, tags and flags and all starting points are covered, and the whole chain of outlines, dilation, sweep, contours, labels and flood fill.", "anchors": ["programs/src/idchoppers.rs:route_map_as_svg", "src/shapeops.rs:compute", "src/map.rs:sector_to_polygons", "src/map.rs:find_player_start"]}
{"id": "C95", "title": "a new chunk begins only where there is a reason", "statement": "In the route map every chunk has an area from which all its others can be walked to inside the chunk, and which either contains the player's start or touches an area of an earlier chunk with a reason not to walk from that one to this: a line that blocks players, floors more than 24 units apart, or different tags. So on a map where no line blocks, no two floors are more than 24 units apart and all tags are the same (0 and 13 counting as one), every chunk contains an area the player starts in; if that is at most one area there is at most one chunk, and an area has distance 1 if it can be reached from the start through touching areas and 0 otherwise.", "quantifier": "all maps on which the route map is made, all containers, all numbers of areas", "why_tests_cant": "A missing or superfluous chunk border depends on the order in which the areas are visited, which a test of a few maps cannot cover.", "anchors": ["programs/src/idchoppers.rs:route_map_as_svg"]}
