{"id": "C01", "title": "Queued drawing is first-in first-out", "statement": "The linked-list queue behind deferred drawing hands items back in exactly the order they were put in: peek shows the oldest/newest item, pop removes exactly the oldest, popping an empty queue yields nothing, and no sequence of pushes and pops dereferences a freed or dangling node.", "quantifier": "every finite sequence of push/pop/peek operations with arbitrary payloads", "why_tests_cant": "Order and pointer validity must hold after every history, e.g. after draining to empty and refilling any number of times.", "anchors": ["fifo.c: fifo_push, fifo_pop, fifo_peek_first, fifo_peek_last"]}
{"id": "C02", "title": "Tiles never alias and survive growth", "statement": "Two different tile positions inside the tile map never share a storage slot, each slot used lies inside the allocation, and growing the map keeps the content of every old position and starts every new position empty.", "quantifier": "every map size, every pair of tile indices, every larger size", "why_tests_cant": "Quantifies over all signed coordinates and sizes; aliasing would corrupt a distant tile only for particular coordinates.", "anchors": ["tilemap.c: tile_map_new, tile_map_get, tile_map_copy_to, tile_map_contains"]}
{"id": "C03", "title": "Per-tile operation order is preserved", "statement": "For every history of drawing operations (adding operations to tiles anywhere on the canvas, popping, peeking, clearing the dirty list), the operations later popped from a tile are exactly those added to it and not yet popped, in the order added; operations on one tile never affect another tile.", "quantifier": "every sequence of queue operations over all tile indices (positive and negative)", "why_tests_cant": "The map is grown on demand, per-tile queues are created and destroyed on demand; the claim must survive every interleaving of these events.", "anchors": ["operationqueue.c: operation_queue_add, operation_queue_pop, operation_queue_peek_first, operation_queue_peek_last, operation_queue_resize"]}
{"id": "C04", "title": "No pending tile is forgotten and none is processed twice", "statement": "When the dirty tiles are collected at the end of an atomic drawing block, every tile that has a pending operation is in the list, and no tile appears twice (so that tiles can be processed in parallel).", "quantifier": "every history of adds, flushes of single tiles and end-of-atomic drains", "why_tests_cant": "A forgotten tile shows up as missing paint only after a particular history; a duplicate as a data race.", "anchors": ["operationqueue.c: operation_queue_add, operation_queue_get_dirty_tiles, operation_queue_clear_dirty_tiles, remove_duplicate_tiles"]}
{"id": "C05", "title": "Queueing an operation never aborts", "statement": "Adding a drawing operation to any tile succeeds: it neither trips an assertion nor writes past the dirty-tile array.", "quantifier": "every history of adds and per-tile flushes between two end_atomic calls", "why_tests_cant": "Only the histories that fill the whole map and then re-dirty a flushed tile are affected.", "anchors": ["operationqueue.c: operation_queue_add", "mypaint-tiled-surface.c: process_tile, get_color"]}
{"id": "C06", "title": "Deferred drawing equals immediate drawing", "statement": "After end_atomic the canvas has exactly the pixels that would result from applying every accepted dab immediately, one after the other, to all tiles it touches.", "quantifier": "every list of dabs, every initial canvas, every tile backend that always delivers tiles", "why_tests_cant": "The number of dabs, tiles and their interleavings is unbounded.", "anchors": ["mypaint-tiled-surface.c: draw_dab_internal, process_tile, tiled_surface_process_tile, mypaint_tiled_surface_end_atomic"]}
{"id": "C07", "title": "The result does not depend on the order in which tiles are processed", "statement": "Processing the dirty tiles in any order, or interleaving the processing steps of different tiles in any way (worker threads), yields the same canvas.", "quantifier": "every permutation and every interleaving of per-tile work", "why_tests_cant": "Thread schedules cannot be enumerated by tests.", "anchors": ["mypaint-tiled-surface.c: mypaint_tiled_surface_end_atomic, process_tile"]}
{"id": "C08", "title": "Sampling colour in the middle of a block is transparent", "statement": "get_color sees the canvas with all dabs drawn so far applied to the tiles it reads, and calling it at any point does not change the final canvas.", "quantifier": "every interleaving of draw_dab and get_color calls in an atomic block", "why_tests_cant": "Any number of flush points at any position in the history.", "anchors": ["mypaint-tiled-surface.c: get_color, process_tile"]}
{"id": "C09", "title": "The reported dirty rectangles cover every changed pixel", "statement": "Every pixel changed between begin_atomic and end_atomic lies in one of the rectangles end_atomic reports.", "quantifier": "every sequence of dabs in the block (visible and invisible ones), every symmetry setting, every capacity of the rectangle list", "why_tests_cant": "Depends on the whole history of the block, not on one dab.", "anchors": ["mypaint-tiled-surface.c: draw_dab, update_dirty_bbox, mypaint_tiled_surface_begin_atomic, mypaint_tiled_surface_end_atomic"]}
{"id": "C10", "title": "Growing a rectangle gives the least rectangle covering both", "statement": "Expanding a rectangle by a point or by another rectangle yields the smallest rectangle that contains both, so that the order in which points and rectangles are added is irrelevant and nothing is ever lost.", "quantifier": "all rectangles and points; all finite sequences of expansions", "why_tests_cant": "Universal over integer coordinates and over sequences.", "anchors": ["mypaint-rectangle.c: mypaint_rectangle_expand_to_include_point, mypaint_rectangle_expand_to_include_rect"]}
{"id": "C11", "title": "A dab is not cut off at tile borders", "statement": "The set of tiles a dab is queued for contains every pixel the dab can colour; rendering per tile gives the same pixels as rendering on one big canvas; no pixel farther than radius+1 from the centre (in either axis) is changed.", "quantifier": "all dab positions and radii, all tiles", "why_tests_cant": "Off-by-one errors appear only for particular sub-pixel positions relative to tile borders.", "anchors": ["mypaint-tiled-surface.c: draw_dab_internal, render_dab_mask, process_op"]}
{"id": "C12", "title": "Invisible dabs do nothing", "statement": "A dab with zero opacity, zero hardness, full softness or a radius below 0.1 reports FALSE and queues nothing, while parameters out of range are clamped, never used raw.", "quantifier": "all dab parameters", "why_tests_cant": "Universal over real parameters.", "anchors": ["mypaint-tiled-surface.c: draw_dab_internal"]}
{"id": "C13", "title": "The run-length mask loses nothing", "statement": "Decoding the compressed dab mask visits exactly the pixels with non-zero opacity, at their position in the tile and with their opacity, and always stops inside the tile.", "quantifier": "every opacity function on the 64x64 tile and every sub-window", "why_tests_cant": "2^(16*4096) masks.", "anchors": ["mypaint-tiled-surface.c: render_dab_mask", "brushmodes.c: draw_dab_pixels_BlendMode_Normal"]}
{"id": "C14", "title": "The mask buffer is never overrun", "statement": "The compressed mask of any dab fits in the fixed buffer of 64*64+2*64 entries.", "quantifier": "all dab centres, radii, hardness, softness, aspect ratios and angles, all tiles", "why_tests_cant": "The worst case is a particular geometry; overrun would be silent memory corruption.", "anchors": ["mypaint-tiled-surface.c: render_dab_mask, process_op, get_color", "tiled-surface-private.h"]}
{"id": "C15", "title": "Dab opacity falls off smoothly", "statement": "The opacity of a dab as a function of the distance from its centre stays within 0..1, never increases outwards, has no jump at the hardness boundary, starts at 1-softness and is zero outside the dab.", "quantifier": "all distances, all hardness in (0,1], all softness in [0,1)", "why_tests_cant": "Universal over reals.", "anchors": ["mypaint-tiled-surface.c: calculate_opa"]}
{"id": "C16", "title": "Blending keeps pixels valid", "statement": "If every pixel is a valid premultiplied pixel (colour channels <= alpha <= 2^15) before a dab, it is valid after it; no intermediate value overflows its C type.", "quantifier": "all pixels, colours, masks, opacities, all integer blend modes", "why_tests_cant": "2^64 pixels times all brush parameters.", "anchors": ["brushmodes.c: draw_dab_pixels_BlendMode_Normal, _Normal_and_Eraser, _LockAlpha, _Posterize, _Color, _Normal_Paint, _Normal_and_Eraser_Paint, _LockAlpha_Paint"]}
{"id": "C17", "title": "Normal blending is the over operator", "statement": "Normal blending computes the over operator on premultiplied colours: within two units (of 32768) of the exact value, identity at opacity zero, replacement by the brush colour at full opacity, and each channel ends between its old value and the brush colour.", "quantifier": "all pixels, colours, mask values, opacities", "why_tests_cant": "Full 16-bit state space.", "anchors": ["brushmodes.c: draw_dab_pixels_BlendMode_Normal"]}
{"id": "C18", "title": "Locked alpha, colorize and posterize never change transparency", "statement": "Alpha-locked painting, colorizing and posterizing leave the alpha channel of every pixel unchanged, and fully transparent (valid) pixels stay fully transparent black.", "quantifier": "all pixels and parameters", "why_tests_cant": "Full state space.", "anchors": ["brushmodes.c: draw_dab_pixels_BlendMode_LockAlpha, _LockAlpha_Paint, _Color, _Posterize"]}
{"id": "C19", "title": "Erasing only removes", "statement": "Painting with colour alpha zero never increases any channel of any pixel, a full-opacity erase leaves a fully transparent pixel, and repeated erasing reaches transparency.", "quantifier": "all pixels, masks, opacities, any number of erasing dabs", "why_tests_cant": "Full state space and unbounded repetition.", "anchors": ["brushmodes.c: draw_dab_pixels_BlendMode_Normal_and_Eraser"]}
{"id": "C20", "title": "Colorizing is defined for every pixel", "statement": "Colorizing any valid pixel with any brush colour yields a valid pixel and never performs an undefined operation (division by zero, signed overflow).", "quantifier": "all brush colours, all pixels", "why_tests_cant": "2^48 colour pairs; the failing ones are rare.", "anchors": ["brushmodes.c: set_rgb16_lum_from_rgb16, draw_dab_pixels_BlendMode_Color"]}
{"id": "C21", "title": "Posterize maps to the nearest level", "statement": "At full opacity posterize replaces each channel by the nearest of the num+1 equally spaced levels; it never overflows and applying it twice is the same as once.", "quantifier": "all channel values and level counts 1..128", "why_tests_cant": "Must hold for every level count and value together with float arithmetic being exact.", "anchors": ["brushmodes.c: draw_dab_pixels_BlendMode_Posterize"]}
{"id": "C22", "title": "Colour sampling computes the masked average", "statement": "Legacy colour sampling accumulates the mask-weighted sums of the tile without overflowing 32 bits for any tile content, and the colour returned by get_color is in 0..1 for each channel; on a uniformly coloured opaque canvas it returns that colour up to rounding.", "quantifier": "all tile contents and masks", "why_tests_cant": "Worst-case sums occur only on extreme tiles.", "anchors": ["brushmodes.c: get_color_pixels_legacy, get_color_pixels_accumulate", "mypaint-tiled-surface.c: get_color"]}
{"id": "C23", "title": "Colour sampling never divides by zero", "statement": "get_color is defined for every finite radius: the sampling interval used as a divisor is never zero.", "quantifier": "all radii", "why_tests_cant": "The failing radii form thin intervals above 9362.", "anchors": ["mypaint-tiled-surface.c: get_color", "brushmodes.c: get_color_pixels_accumulate"]}
{"id": "C24", "title": "Symmetry draws the right number of copies and stays in bounds", "statement": "A dab with active symmetry is painted 1 + (number of transforms) times: 2 for vertical and horizontal, 4 for both, n for n-fold rotation, 2n for snowflake; every access to the transform table and to the bounding-box table is in bounds.", "quantifier": "all symmetry types, all line counts, all current and previous settings", "why_tests_cant": "Line count is unbounded and tables are reallocated lazily.", "anchors": ["mypaint-symmetry.c: mypaint_update_symmetry_state, num_matrices_required", "mypaint-tiled-surface.c: draw_dab, prepare_bounding_boxes"]}
{"id": "C25", "title": "Symmetry transforms are the geometric symmetries", "statement": "Each mirror transform is the reflection in the line through the chosen centre at the chosen angle, each rotation transform is the rotation about the centre by a multiple of 360/n degrees; together with the identity the transforms form the symmetry group, so drawing any of the copies instead of the original gives the same picture.", "quantifier": "all centres, angles, line counts", "why_tests_cant": "Geometric identity over reals for all n.", "anchors": ["mypaint-symmetry.c: mypaint_update_symmetry_state", "mypaint-matrix.c"]}
{"id": "C26", "title": "Symmetry changes take effect exactly at the next begin_atomic", "statement": "After set_symmetry_state, drawing uses the old transforms until begin_atomic and afterwards exactly the transforms of the last requested state, for every history of state changes.", "quantifier": "all histories of set_symmetry_state, begin_atomic and allocation failures", "why_tests_cant": "History-dependent (pending flag, equal-state short cut, reused allocation).", "anchors": ["mypaint-symmetry.c: mypaint_symmetry_set_pending, mypaint_update_symmetry_state", "mypaint-tiled-surface.c: mypaint_tiled_surface_begin_atomic"]}
{"id": "C27", "title": "The random generator stays in range and is reproducible", "statement": "Every number drawn is in [0,1); the sequence after seeding depends only on the low 30 bits of the seed and not on what was drawn before; no array access leaves its array.", "quantifier": "all seeds, all numbers of draws", "why_tests_cant": "Sequence is unbounded.", "anchors": ["rng-double.c: rng_double_new, rng_double_set_seed, rng_double_cycle, rng_double_next, rng_double_get_array"]}
{"id": "C28", "title": "The random generator is the lagged Fibonacci generator it claims to be", "statement": "The internal stream satisfies x[n] = x[n-10] + x[n-7] mod 1 for every n, the drawn numbers are the first ten of every block of nineteen, and the stream never degenerates to all-zero.", "quantifier": "all seeds, all positions", "why_tests_cant": "Unbounded stream; degenerate states would show up for particular seeds only.", "anchors": ["rng-double.c"]}
{"id": "C29", "title": "Gaussian noise is bounded", "statement": "The gaussian random input is always within +-2*sqrt(3) of zero, so jitter offsets are bounded.", "quantifier": "all generator states", "why_tests_cant": "Universal over states.", "anchors": ["helpers.c: rand_gauss"]}
{"id": "C30", "title": "Brush dynamics curves interpolate their control points", "statement": "The mapped value is the base value plus, for each input with a curve, the piecewise-linear function through its control points: exact at each point, between neighbouring points in between, continued linearly outside; inputs without a curve have no influence.", "quantifier": "all curves with 2..64 points, all inputs", "why_tests_cant": "Universal over real inputs and curves.", "anchors": ["mypaint-mapping.c: mypaint_mapping_calculate"]}
{"id": "C31", "title": "is_constant tells the truth", "statement": "After any sequence of curve edits a mapping reports constant exactly when no input has control points, and a constant mapping evaluates to its base value for every input.", "quantifier": "all histories of set_n / set_point / set_base_value", "why_tests_cant": "The bookkeeping counter is updated incrementally.", "anchors": ["mypaint-mapping.c: mypaint_mapping_set_n, mypaint_mapping_is_constant, mypaint_mapping_set_base_value"]}
{"id": "C32", "title": "Control points stay sorted", "statement": "The API rejects control points that are not in increasing order, so the evaluated curve is always sorted.", "quantifier": "all histories of set_point", "why_tests_cant": "Order of the calls matters.", "anchors": ["mypaint-mapping.c: mypaint_mapping_set_point"]}
{"id": "C33", "title": "Angle arithmetic is correct", "statement": "mod_arith returns the representative in [0,N); the smallest angular difference of two angles lies in [-180,180], is congruent to their difference modulo 360 and has the least absolute value.", "quantifier": "all angles", "why_tests_cant": "Universal over reals.", "anchors": ["helpers.c: mod_arith, smallest_angular_difference"]}
{"id": "C34", "title": "RGB and HSV convert back and forth without loss", "statement": "Converting a colour to HSV yields h in [0,1), s and v in [0,1]; converting back returns the same colour (exactly, except near-grey colours within 0.0001 which become the grey of equal value).", "quantifier": "all RGB colours in the unit cube", "why_tests_cant": "Case analysis over a continuous cube.", "anchors": ["helpers.c: rgb_to_hsv_float, hsv_to_rgb_float"]}
{"id": "C35", "title": "RGB and HSL convert back and forth without loss", "statement": "The same round trip for HSL.", "quantifier": "all RGB colours in the unit cube", "why_tests_cant": "Case analysis over a continuous cube.", "anchors": ["helpers.c: rgb_to_hsl_float, hsl_to_rgb_float"]}
{"id": "C36", "title": "RGB and HCY convert back and forth without loss", "statement": "The same round trip for HCY.", "quantifier": "all RGB colours in the unit cube", "why_tests_cant": "Case analysis over a continuous cube.", "anchors": ["helpers.c: rgb_to_hcy_float, hcy_to_rgb_float"]}
{"id": "C37", "title": "Mixing colours stays between the inputs", "statement": "Additive mixing of two colours gives an alpha between the two alphas and colour channels between the two colours' channels; factor 0/1 returns one of them.", "quantifier": "all colours and factors in [0,1]", "why_tests_cant": "Universal over reals.", "anchors": ["helpers.c: mix_colors"]}
{"id": "C38", "title": "Smudge buckets are independent memories", "statement": "Setting the state of one smudge bucket and reading it back returns what was set, does not change any other bucket, and is the state the brush engine uses for that bucket.", "quantifier": "all bucket counts, indices and histories", "why_tests_cant": "Aliasing depends on index pairs.", "anchors": ["mypaint-brush.c: mypaint_brush_set_smudge_bucket_state, mypaint_brush_get_smudge_bucket_state, fetch_smudge_bucket"]}
{"id": "C39", "title": "Resetting clears all brush memory", "statement": "After mypaint_brush_reset and the next stroke_to, no state or smudge bucket value from before remains.", "quantifier": "all histories of bucket use", "why_tests_cant": "Depends on the set of buckets used before.", "anchors": ["mypaint-brush.c: mypaint_brush_reset, brush_reset"]}
{"id": "C40", "title": "The first event after a reset paints nothing", "statement": "The first stroke_to after creation or reset only positions the brush: it draws no dab and returns TRUE.", "quantifier": "all events and histories", "why_tests_cant": "History dependent.", "anchors": ["mypaint-brush.c: mypaint_brush_stroke_to"]}
{"id": "C41", "title": "The fractional dab counter stays in [0,1)", "statement": "Between motion events the brush holds less than one pending dab, so that no dab is ever skipped or doubled.", "quantifier": "all event sequences", "why_tests_cant": "History dependent, dynamic settings.", "anchors": ["mypaint-brush.c: mypaint_brush_stroke_to, count_dabs_to"]}
{"id": "C42", "title": "Dab spacing does not depend on how motion is chopped into events", "statement": "With constant dab rates, splitting one motion into several events along the same line places the same number of dabs at the same positions.", "quantifier": "all splittings of a motion into events", "why_tests_cant": "Unbounded number of splittings.", "anchors": ["mypaint-brush.c: mypaint_brush_stroke_to, count_dabs_to"]}
{"id": "C43", "title": "A motion event always terminates and ends at its target", "statement": "Computed with exact numbers (C78 treats rounding), the dab loop of stroke_to terminates for any bounded dynamics, with a number of dabs bounded by the dabs in the motion, and leaves the brush at the target position and pressure.", "quantifier": "all events, all (bounded) dynamics changing at every dab", "why_tests_cant": "Termination over all dynamics.", "anchors": ["mypaint-brush.c: mypaint_brush_stroke_to"]}
{"id": "C44", "title": "Malformed input never crashes", "statement": "stroke_to survives any coordinates: non-finite or huge positions are neutralised.", "quantifier": "all input coordinates", "why_tests_cant": "Only a particular magnitude range fails.", "anchors": ["mypaint-brush.c: mypaint_brush_stroke_to"]}
{"id": "C45", "title": "Stroke splitting follows the documented rule", "statement": "stroke_to returns TRUE exactly when the recorded stroke should be split, per the documented thresholds on painting and idling time, and the painting clock only advances while painting and restarts after a split.", "quantifier": "all event sequences", "why_tests_cant": "History dependent timing.", "anchors": ["mypaint-brush.c: mypaint_brush_stroke_to"]}
{"id": "C46", "title": "Loading a brush touches only what the file mentions", "statement": "Loading a settings string updates exactly the settings named in it, ignores unknown names and inputs, fails without touching the brush when the version or the document is wrong.", "quantifier": "all documents and all previous brushes", "why_tests_cant": "Unbounded documents.", "anchors": ["mypaint-brush.c: mypaint_brush_from_string, update_brush_from_json_object, update_brush_setting_from_json_object"]}
{"id": "C47", "title": "Loading an untrusted brush never aborts", "statement": "Any syntactically valid document is either loaded or refused with FALSE.", "quantifier": "all documents", "why_tests_cant": "Adversarial documents.", "anchors": ["mypaint-brush.c: update_brush_setting_from_json_object", "mypaint-mapping.c: mypaint_mapping_set_n, mypaint_mapping_set_point"]}
{"id": "C48", "title": "Setting, input and state names are consistent", "statement": "Looking up the name of a setting, input or state gives back its id, unknown names are rejected, and each default lies within its declared range.", "quantifier": "all ids and all names", "why_tests_cant": "All names, including unknown ones.", "anchors": ["mypaint-brush-settings.c: mypaint_brush_setting_from_cname, mypaint_brush_input_from_cname", "brushsettings.json", "generate.py"]}
{"id": "C49", "title": "Reference counting destroys exactly once", "statement": "A surface or brush is destroyed exactly when its last reference is dropped, never earlier and never twice, for every balanced history of ref and unref.", "quantifier": "all sequences of ref/unref", "why_tests_cant": "History dependent.", "anchors": ["mypaint-surface.c: mypaint_surface_ref, mypaint_surface_unref", "mypaint-brush.c: mypaint_brush_ref, mypaint_brush_unref"]}
{"id": "C50", "title": "The fixed surface hands out valid, non-overlapping tiles", "statement": "A tile request inside the surface yields 64*64 pixels inside the buffer that overlap no other tile; requests outside yield a scratch tile that is all zero at every request, so painting outside has no effect.", "quantifier": "all surface sizes, all tile indices, all request histories", "why_tests_cant": "Universal over sizes and indices.", "anchors": ["mypaint-fixed-tiled-surface.c: tile_request_start, tile_request_end, mypaint_fixed_tiled_surface_new"]}
{"id": "C51", "title": "A new fixed surface holds valid pixels", "statement": "Every pixel of a freshly created fixed surface is a valid premultiplied pixel (channels at most 2^15).", "quantifier": "all sizes", "why_tests_cant": "It is a concrete defect; the theorem shows for every size that no pixel is valid.", "anchors": ["mypaint-fixed-tiled-surface.c: mypaint_fixed_tiled_surface_new, reset_null_tile"]}
{"id": "C52", "title": "A failing tile backend loses at most the dabs of that block", "statement": "If the backend cannot deliver a tile during one end_atomic, later drawing on that tile is still painted once the backend recovers.", "quantifier": "all histories with backend failures", "why_tests_cant": "Failure point and subsequent history are arbitrary.", "anchors": ["mypaint-tiled-surface.c: process_tile, mypaint_tiled_surface_end_atomic", "operationqueue.c: operation_queue_add"]}
{"id": "C53", "title": "Brush dynamics inputs stay in their ranges", "statement": "Every value handed to the brush dynamics as direction, tilt, attack angle, grid map, random or barrel rotation lies in its documented range and dab radius, opacity, aspect ratio stay in their legal ranges.", "quantifier": "all events and settings", "why_tests_cant": "Universal over continuous inputs.", "anchors": ["mypaint-brush.c: update_states_and_setting_values, prepare_and_draw_dab, directional_offsets"]}
{"id": "C54", "title": "Finishing a block never writes outside the caller's list of rectangles", "statement": "end_atomic writes only rectangles inside the list the caller passes, whatever its capacity and whatever happened on the surface before, and returns no more rectangles than the list can hold.", "quantifier": "all capacities, all numbers of symmetric copies, all histories of the surface", "why_tests_cant": "The write index is a rounded quotient of two run-time counts; capacity and history are arbitrary.", "anchors": ["mypaint-tiled-surface.c: mypaint_tiled_surface_end_atomic, mypaint_tiled_surface_init, prepare_bounding_boxes"]}
{"id": "C55", "title": "Resetting a brush to defaults forgets the previous brush", "statement": "mypaint_brush_from_defaults succeeds on every brush and leaves every setting at the default of the table, without dynamics except opacity following pressure, whatever was loaded or set before.", "quantifier": "all brushes and all histories of settings", "why_tests_cant": "The previous settings and curves are arbitrary.", "anchors": ["mypaint-brush.c: mypaint_brush_from_defaults", "brushsettings.json"]}
{"id": "C56", "title": "No brush file can hang the program", "statement": "For every combination of settings and curves a brush file can contain, stroke_to returns.", "quantifier": "all brush settings, all dynamics curves, all sequences of events", "why_tests_cant": "Termination over all dynamics; the number of remaining dabs is recomputed from the dynamics after every dab.", "anchors": ["mypaint-brush.c: mypaint_brush_stroke_to, count_dabs_to, update_states_and_setting_values"]}
{"id": "C57", "title": "Finishing a block reports nothing but what the block drew", "statement": "Any rectangle that holds the dabs of a block and their symmetric images (each dab as a square one pixel larger than its radius) holds all rectangles end_atomic returns for the block: areas drawn by earlier blocks are not reported again, and a block in which nothing visible is drawn reports nothing.", "quantifier": "all histories of the surface, all blocks of dabs, all symmetry settings, all capacities of the list of rectangles", "why_tests_cant": "The boxes are reused between blocks and cleared according to a count left by the last dab; whether stale boxes survive depends on the whole history.", "anchors": ["mypaint-tiled-surface.c: prepare_bounding_boxes, update_dirty_bbox, draw_dab, mypaint_tiled_surface_end_atomic"]}
{"id": "C58", "title": "A brush paints with its own colour and settings", "statement": "Without smudging and without dynamics of the colour, every dab a session asks of the surface has exactly the colour chosen for the brush, and an alpha of one minus the eraser setting. For every brush, lock-alpha, colorize, posterize, the posterize levels, the pigment amount and the softness of a dab are the values of those settings at one moment of the stroke. A session never changes the settings.", "quantifier": "all settings and curves meeting the condition, all sequences of motion events, all surfaces and random numbers, every dab", "why_tests_cant": "The number of dabs, their dynamics and the state of the engine at each are unbounded.", "anchors": ["mypaint-brush.c: prepare_and_draw_dab, mypaint_brush_stroke_to"]}
{"id": "C59", "title": "Radius, edge, opacity and position of a dab are those the settings ask for", "statement": "Every dab has the radius the radius setting stands for, limited to 0.2 .. 1000, and the hardness setting limited to 0 .. 1; if the soft edge is narrower than the anti-aliasing setting it is widened to exactly that setting with its middle kept in place. The opacity is the product of both opacity settings limited to 0 .. 1 (without linearisation), and with snap-to-pixel fully on the centre is the middle of a pixel and the diameter a whole number of pixels, less 0.0002.", "quantifier": "all settings and curves, all sequences of motion events, every dab", "why_tests_cant": "Anti-aliasing and snapping are piecewise in radius, hardness and position; every combination must be right.", "anchors": ["mypaint-brush.c: prepare_and_draw_dab, update_states_and_setting_values"]}
{"id": "C60", "title": "Overlapping dabs add up to the opacity that was asked for", "statement": "With opaque_linearize at 1, as many dabs of the opacity that is drawn as cover a point of a straight line (two radii times the dabs per radius) let through as much of the canvas as one dab of the opacity the settings ask for; with smaller values the number of dabs reckoned with is interpolated down to one.", "quantifier": "all settings and curves without random radius, all sequences of events, every dab, real exponentials", "why_tests_cant": "A statement about real powers for all opacities and dab rates.", "anchors": ["mypaint-brush.c: prepare_and_draw_dab"]}
{"id": "C61", "title": "Smudging never invents colours", "statement": "If the canvas answers with colours and alphas from 0 to 1, every dab has a colour and an alpha from 0 to 1, whatever has been smudged before, in every smudge mode, with and without smudge buckets.", "quantifier": "all smudge, colour and eraser settings and curves in range, all canvases, all sequences of events, every dab", "why_tests_cant": "The smudge memory is fed back at every dab and divided by an alpha that may be tiny; only an invariant over the whole history bounds it.", "anchors": ["mypaint-brush.c: update_smudge_color, apply_smudge, prepare_and_draw_dab", "helpers.c: mix_colors, hsl_to_rgb_float, hsv_to_rgb_float"]}
{"id": "C62", "title": "The speed inputs are calibrated", "statement": "Whatever the gamma setting, a speed of 45 gives the speed input the value 0.5, the slope there is 0.015, and a faster stroke gives a greater input.", "quantifier": "all gamma settings, all speeds", "why_tests_cant": "A statement about a real function with real parameters, including its derivative.", "anchors": ["mypaint-brush.c: settings_base_values_have_changed, update_states_and_setting_values"]}
{"id": "C63", "title": "Paint appears where the pen was", "statement": "With a brush that does not scatter (no tracking noise, random offset, offset by speed or snapping), every dab of a session has its centre inside the convex hull of the pen positions and of where the brush was before, however it lags behind (slow tracking); with directional offsets it is at most 3240 pixels away from such a point in each coordinate. Tracking noise, a random offset and snapping add no more than their bounds.", "quantifier": "all sessions of motion events, all brush settings and dynamics of that kind, all convex regions", "why_tests_cant": "Lag is a product of exponentials over an unbounded number of dabs and events; containment must hold for every path.", "anchors": ["mypaint-brush.c: mypaint_brush_stroke_to_2, update_states_and_setting_values, prepare_and_draw_dab, directional_offsets"]}
{"id": "C64", "title": "A stroke changes no pixel far from the pen", "statement": "Over any number of begin_atomic / stroke_to / end_atomic blocks, with a brush that does not scatter or snap and whose radius and soft edge are bounded, no pixel changes whose centre is farther from the convex hull of the pen positions than radius + half the soft edge + 1.5 pixels (plus the directional offsets, at most 3240) along one of the axes. For brushes that scatter or snap the same holds with the bounds of the scattering added.", "quantifier": "all sequences of blocks, motion events, brush settings and dynamics, canvases, and thread schedules", "why_tests_cant": "Needs the engine, the queue, the tiles, the mask and the blending together, for every path of the pen.", "anchors": ["mypaint-brush.c: mypaint_brush_stroke_to, prepare_and_draw_dab", "mypaint-tiled-surface.c: draw_dab, draw_dab_internal, process_op, begin_atomic_default, end_atomic_default", "brushmodes.c"]}
{"id": "C65", "title": "Painting keeps the picture valid", "statement": "If every pixel is valid (premultiplied, channels at most 2^15) before a painting session, every pixel is valid after it, for brushes that do not colorize or posterize and do not mix pigments under locked alpha; with any symmetry and any smudging.", "quantifier": "all sequences of blocks, motion events, brush settings of that kind, canvases", "why_tests_cant": "An invariant over unboundedly many dabs whose parameters come from the brush dynamics.", "anchors": ["mypaint-brush.c: mypaint_brush_stroke_to, prepare_and_draw_dab", "mypaint-tiled-surface.c: draw_dab, draw_dab_internal, process_op, begin_atomic_default, end_atomic_default", "brushmodes.c"]}
{"id": "C66", "title": "An alpha-locked brush keeps transparency, an eraser only removes", "statement": "Painting with a brush whose lock_alpha (or colorize, or posterize) is always at least 1 changes the alpha of no pixel. Painting with a brush whose eraser is always at least 1 raises the alpha of no pixel, and without pigment mixing raises no channel.", "quantifier": "all sequences of blocks, motion events, other brush settings, canvases, symmetries", "why_tests_cant": "Must hold for every dab of every stroke, whatever dynamics and smudging do to its colour.", "anchors": ["mypaint-brush.c: mypaint_brush_stroke_to, prepare_and_draw_dab", "mypaint-tiled-surface.c: draw_dab, draw_dab_internal, process_op, begin_atomic_default, end_atomic_default", "brushmodes.c"]}
{"id": "C67", "title": "Every change a stroke makes is reported", "statement": "When a block of motion events ends into a list of rectangles, every pixel that the block changed lies in one of them. (An application redraws only these.)", "quantifier": "all sequences of blocks, motion events, brushes, canvases, symmetries, list sizes", "why_tests_cant": "Depends on which dab of the stroke comes last.", "anchors": ["mypaint-brush.c: mypaint_brush_stroke_to, prepare_and_draw_dab", "mypaint-tiled-surface.c: draw_dab, draw_dab_internal, process_op, begin_atomic_default, end_atomic_default", "brushmodes.c"]}
{"id": "C68", "title": "A brush with positive opacity leaves a mark", "statement": "Every dab of a brush whose opacity and hardness are always positive and whose softness is below 1 is really drawn; in particular its stroke is not lost.", "quantifier": "all sessions of motion events, brush settings and dynamics", "why_tests_cant": "It fails exactly for brushes thinner than their anti-aliasing, for every stroke.", "anchors": ["mypaint-brush.c: mypaint_brush_stroke_to, prepare_and_draw_dab", "mypaint-tiled-surface.c: draw_dab, draw_dab_internal, process_op, begin_atomic_default, end_atomic_default", "brushmodes.c", "mypaint-brush.c: anti-aliasing, lines 1195-1215"]}
{"id": "C69", "title": "A GEGL-backed surface hides nothing that was painted", "statement": "Whatever tiles are written through a GEGL-backed surface lie inside the extent of its buffer, so that everything painted is part of the buffer's picture; the extent is the least rectangle with the painted tiles.", "quantifier": "all sequences of tile reads, tile writes and buffer replacements; all interleavings of the threads that request tiles", "why_tests_cant": "The extent is updated without a lock while several threads request tiles: only some schedules lose a tile.", "anchors": ["gegl/mypaint-gegl-surface.c: tile_request_start, mypaint_gegl_tiled_surface_set_buffer", "mypaint-tiled-surface.c: end_atomic_default"]}
{"id": "C70", "title": "Painting on a buffer handed over keeps the rest of its picture", "statement": "After an application hands its own buffer to a GEGL-backed surface, painting a tile changes nothing in the buffer's picture outside of that tile.", "quantifier": "all buffers, extents, tiles and colours", "why_tests_cant": "Depends on where the buffer reaches and on what the surface painted before.", "anchors": ["gegl/mypaint-gegl-surface.c: mypaint_gegl_tiled_surface_set_buffer, tile_request_start"]}
{"id": "C71", "title": "A GEGL-backed surface owns the buffer handed to it", "statement": "A buffer handed to a GEGL-backed surface (transfer full) is released with the surface; a buffer the surface makes itself too; an object that is not a buffer is refused and the surface can still be used.", "quantifier": "all heaps, reference counts and addresses", "why_tests_cant": "Leaks and dangling pointers are invisible to a test that looks at pixels.", "anchors": ["gegl/mypaint-gegl-surface.c: mypaint_gegl_tiled_surface_set_buffer, free_gegl_tiledsurf, mypaint_gegl_tiled_surface_new"]}
{"id": "C72", "title": "The states of a brush can be recorded and replayed", "statement": "A state that was set is read back and nothing else of the brush changes. Setting all the recorded states of one brush in another brush with the same settings makes it paint the same strokes from there on.", "quantifier": "all brushes, states, surfaces and sequences of motion events", "why_tests_cant": "Replaying must agree for every later history; it fails when something that matters is not among the states.", "anchors": ["mypaint-brush.c: mypaint_brush_get_state, mypaint_brush_set_state, mypaint_brush_stroke_to"]}
{"id": "C73", "title": "Brushes do not disturb each other", "statement": "However the motion events of several brushes are interleaved in one thread, each brush paints on its surface what it would have painted alone.", "quantifier": "all numbers of brushes, settings, surfaces and interleavings", "why_tests_cant": "The brushes share a static buffer, which matters only for some settings and orders.", "anchors": ["helpers.c: mix_colors", "mypaint-brush.c: mypaint_brush_stroke_to, update_smudge_color, apply_smudge"]}
{"id": "C74", "title": "The stroke input rises through a stroke", "statement": "When a stroke begins, the input \"stroke\" is zero. While the pen stays pressed it grows with the distance drawn, in units of radius times stroke duration, and with infinite hold time it never falls, whatever the events, until the pressure drops below nine tenths of the threshold or the pen pauses for more than five seconds.", "quantifier": "all brushes with infinite hold time, states in the middle of a stroke and sequences of motion events", "why_tests_cant": "The input depends on the whole history of pressures and positions; a restart in the middle shows up for particular histories only.", "anchors": ["mypaint-brush.c: update_states_and_setting_values", "brushsettings.json: stroke_threshold, stroke_duration_logarithmic, stroke_holdtime"]}
{"id": "C75", "title": "The transparency limit of smudging is kept", "statement": "A smudging brush with a positive transparency limit draws no dab where the canvas it picks up is more transparent than the limit; with a negative limit none where it is more opaque.", "quantifier": "all smudging brushes, canvases and sequences of motion events", "why_tests_cant": "It must hold for every dab of every stroke; the memory between samples makes it depend on the history.", "anchors": ["mypaint-brush.c: update_smudge_color, prepare_and_draw_dab", "brushsettings.json: smudge_transparency"]}
{"id": "C76", "title": "Painting neither corrupts nor leaks memory", "statement": "While a surface is painted on, nothing that was released is touched or released again, whatever blocks malloc hands out. After the end of an atomic block no memory of the queued dabs is in use, and destroying a surface releases everything it allocated for them.", "quantifier": "all sessions of dabs, colour sampling and atomic blocks, all processing orders and all allocators that return unused blocks", "why_tests_cant": "Corruption depends on which addresses malloc reuses and on the whole history of queued and sampled tiles; leaks do not show in the picture.", "anchors": ["fifo.c: fifo_push, fifo_pop, fifo_free", "operationqueue.c: operation_queue_add, operation_queue_pop, operation_queue_resize, operation_queue_free", "mypaint-tiled-surface.c: process_tile, mypaint_tiled_surface_end_atomic, mypaint_tiled_surface_destroy"]}
{"id": "C77", "title": "Processing tiles in parallel gives the same picture", "statement": "When the end of an atomic block, or the sampling of a colour, lets several threads process tiles at once, no thread touches memory that another one uses or that was released, every thread ends, and the finished picture is the one obtained by applying every dab at once, with no memory of the queue left.", "quantifier": "all sessions, all numbers of threads, all ways to share out the tiles without giving one to two threads, all interleavings of the single statements", "why_tests_cant": "The interleaving of threads is not under the control of a test, and a data race may show only once in a million runs.", "anchors": ["operationqueue.c: operation_queue_pop", "fifo.c: fifo_pop, fifo_free", "mypaint-tiled-surface.c: process_tile, mypaint_tiled_surface_end_atomic, get_color"]}
{"id": "C78", "title": "A motion event in single precision ends and arrives", "statement": "With every rounding of the code, a motion event draws finitely many dabs, at most about three for each dab the spacing asks for on the way, and leaves the brush where the event was up to the precision of float, with less than one dab pending, so that whole sessions of events end; this holds while the spacing of the dabs is not finer than the precision of the coordinates allows. It fails beyond that: there are motions with coordinates that the code accepts at which an ordinary brush draws dabs for ever.", "quantifier": "all motions, all brushes with bounded dab rates, all dynamics changing at every dab, every rounding", "why_tests_cant": "Whether the loop ends depends on the last bit of the coordinates and on the dynamics at every dab.", "anchors": ["mypaint-brush.c: mypaint_brush_stroke_to, count_dabs_to, update_states_and_setting_values"]}
{"id": "C79", "title": "The opacities of a dab are valid in single precision", "statement": "With every rounding of the code, the opacity computed for each pixel of a dab is a number that converts to an integer from 0 to 2^15, is 0 outside of the dab and follows the documented falloff up to a known error; nothing is divided zero by zero in the antialiasing of small dabs. It fails for a hardness that is positive but at most 2^-128: then the centre of the dab is not a number.", "quantifier": "all dabs: position, radius, hardness, softness, aspect ratio, angle; all pixels for which the mask is computed; every rounding", "why_tests_cant": "A conversion that is undefined, or an opacity above 1, may show only for one bit pattern of seven parameters.", "anchors": ["mypaint-tiled-surface.c: render_dab_mask, calculate_opa, calculate_rr, calculate_rr_antialiased"]}
{"id": "C80", "title": "A stroke looks the same wherever on the canvas it is painted", "statement": "If every motion event of a painting session is moved by the same whole number of pixels, and the picture it starts from and the centre of the symmetry too, then the finished picture is the same one, moved by as much: same dabs, same colour of every pixel, no trace of tile borders or of the origin. It fails for brushes that smudge, whose sampling position is rounded toward the origin, and for a new brush with slow tracking, which starts between the origin and the pointer.", "quantifier": "all sessions of any number of atomic blocks and motion events, all shifts by whole pixels, all brushes that do not sample the canvas and do not use the grid map, all pictures, all tile orders", "why_tests_cant": "The relation compares two whole sessions over all shifts; a test tries a few shifts with one brush, and the usual ones stay in the positive quadrant.", "anchors": ["mypaint-brush.c: mypaint_brush_stroke_to, prepare_and_draw_dab, update_states_and_setting_values", "mypaint-tiled-surface.c: draw_dab_internal, process_op, render_dab_mask", "helpers.h: ROUND", "mypaint-symmetry.c: mypaint_update_symmetry_state"]}
{"id": "C81", "title": "An ordinary painting session neither crashes nor hangs", "statement": "From a new surface on, painting with a brush of bounded settings ends after finitely many steps without undefined behaviour or failed assertion, and leaves a valid picture, whatever the pen does: any number of atomic blocks, any number of motion events with finite coordinates up to a million pixels, tilts that are numbers and a positive zoom. This covers the engine, the operation queue, the masks, the pixel operations, colour sampling and the reported areas together. It fails for brushes that smudge: if all tiles of the initial map are painted on in one block, an assertion about the list of marked tiles can fail.", "quantifier": "all sessions of any number of blocks and events, all brushes without offset by speed whose other scattering is bounded and that do not colorize or posterize, all valid pictures, all tile orders, all outcomes of allocation of the symmetry table and the area list, all outcomes of the random generator", "why_tests_cant": "A crash needs one bad combination of brush, pen path and tile history out of infinitely many; the failing assertion needs a stroke that covers every tile of the initial map between two samples.", "anchors": ["mypaint-brush.c: mypaint_brush_stroke_to, prepare_and_draw_dab, update_smudge_color", "mypaint-tiled-surface.c: draw_dab, get_color_internal, begin_atomic, end_atomic", "operationqueue.c: operation_queue_add"]}
{"id": "C82", "title": "Dabs appear as if drawn at once; grouping motion events into atomic blocks does not matter", "statement": "The picture, the brush and the colours picked up while painting are those of a surface on which every dab, with its symmetric copies, appears at the moment it is drawn, although the library only queues dabs per tile. So the result of a session does not depend on how its motion events are distributed over begin_atomic/end_atomic blocks, on the order in which tiles are processed, or on whether the changed areas are asked for. Only whether the assertion of C05 fails can depend on the grouping.", "quantifier": "all histories before, all sessions of any blocks and motion events with unchanged symmetry setting, all brushes including smudging ones, all symmetry settings in force, all pictures, all tile orders, all samples", "why_tests_cant": "It compares a program with queues and threads to one without, over all sessions and all ways of grouping them.", "anchors": ["mypaint-tiled-surface.c: mypaint_tiled_surface_begin_atomic, mypaint_tiled_surface_end_atomic, draw_dab, get_color", "mypaint-brush.c: mypaint_brush_stroke_to", "operationqueue.c", "examples/minimal.c: stroke_to"]}
{"id": "C83", "title": "The brush setting calls report what was set", "statement": "mypaint_brush_get_base_value, get_mapping_n, get_mapping_point, is_constant and get_inputs_used_n report exactly what the last successful set call for that setting, input and point stored, and nothing that was set for another setting, input or point. Every call whose arguments are in range succeeds. A brush is constant in a setting exactly if no input of it has points, and the number of inputs used is the number of inputs with points.", "quantifier": "all sequences of set calls on a new brush, all settings, inputs, points and values", "why_tests_cant": "The calls can be made in any order and any number of times; a test can only try some histories.", "anchors": ["mypaint-brush.c: mypaint_brush_set_base_value, mypaint_brush_get_base_value, mypaint_brush_is_constant, mypaint_brush_get_inputs_used_n, mypaint_brush_set_mapping_n, mypaint_brush_get_mapping_n, mypaint_brush_set_mapping_point, mypaint_brush_get_mapping_point", "mypaint-mapping.c"]}
{"id": "C84", "title": "The used smudge buckets are within the reported range", "statement": "Every smudge bucket that was written since the last reset lies between the values of mypaint_brush_get_min_smudge_bucket_used and mypaint_brush_get_max_smudge_bucket_used, and these two are themselves the smallest and the largest such bucket, so that a program that saves exactly this range saves everything.", "quantifier": "all sequences of smudging steps, bucket calls and resets on a brush with any number of buckets", "why_tests_cant": "The range is updated by each access and must cover every one of an unbounded history.", "anchors": ["mypaint-brush.c: fetch_smudge_bucket, mypaint_brush_get_min_smudge_bucket_used, mypaint_brush_get_max_smudge_bucket_used, mypaint_brush_set_smudge_bucket_state, brush_reset"]}
{"id": "C85", "title": "How the pen is held does not matter to a brush that does not use it", "statement": "If no setting of a brush has a curve for tilt, ascension, attack angle or barrel rotation and the offsets in the direction of the tilt are off, then two sequences of motion events that differ only in xtilt, ytilt and barrel rotation give the same picture, the same answers about splitting the stroke and the same faults; so such a brush paints the same with a mouse as with a tilted pen.", "quantifier": "all such brushes, all sessions of blocks of motion events, all tilts and rotations (infinite ones included, but not NaN), all surfaces and random generators", "why_tests_cant": "It compares pairs of sessions for all brushes, motions and ways to hold the pen.", "anchors": ["mypaint-brush.c: mypaint_brush_stroke_to, update_states_and_setting_values, directional_offsets", "mypaint-mapping.c: mypaint_mapping_calculate"]}
{"id": "C86", "title": "A mirrored picture is symmetric pixel by pixel", "statement": "With vertical or horizontal symmetry switched on, at a line between two pixels or through the middle of pixels, a picture that is its own mirror image stays its own mirror image, exactly and in every pixel, whatever is painted on one side of the line, with any brush, colour, blend mode, smudging and grouping of the events.", "quantifier": "all sessions of blocks of motion events whose dabs lie beside the line, all brushes, lines, symmetric pictures and points in the history of the surface", "why_tests_cant": "It must hold for every pixel, every dab shape and every stroke; a test can compare some pictures only, and an exact equality fails for single positions that tests do not meet.", "anchors": ["mypaint-tiled-surface.c: draw_dab, render_dab_mask, calculate_rr, calculate_rr_antialiased, process_op", "mypaint-symmetry.c: mypaint_update_symmetry_state", "mypaint-matrix.c"]}
{"id": "C87", "title": "Painting with symmetry neither crashes nor hangs", "statement": "An ordinary painting session that switches symmetry on and off, changes its kind, centre, angle and number of lines between blocks, and paints with a brush that does not sample the canvas, ends without a crash, an out-of-bounds access or an endless loop, and with valid pixels; even if the memory for the table of matrices is refused.", "quantifier": "all sequences of blocks with all symmetry settings up to 2^20 lines, all motion events in the region, all brushes with bounded dabs, all allocation failures of the matrix table", "why_tests_cant": "Every copy of every dab must lie within the table of matrices, the list of changed areas and the range of tile numbers, for every setting and history of settings.", "anchors": ["mypaint-tiled-surface.c: draw_dab, prepare_bounding_boxes, begin_atomic, end_atomic, mypaint_tiled_surface_set_symmetry_state", "mypaint-symmetry.c: mypaint_update_symmetry_state, mypaint_symmetry_set_pending", "mypaint-brush.c: mypaint_brush_stroke_to_2"]}
{"id": "C88", "title": "The colour of an eraser does not matter", "statement": "With a brush that erases fully and does not colorize, or with a brush that only smudges, a painting session gives the same picture, the same changed areas and the same fault, if any, whatever colours are chosen between the strokes, and leaves the brush in the same state but for the colour.", "quantifier": "all sequences of blocks of motion events, all colours chosen before each block, all symmetry settings, all initial surfaces, all such brushes with any dynamics", "why_tests_cant": "The colour goes through conversions, smudge buffers and the queue of dabs and is read by several blend modes; that no path lets it reach a pixel is a statement about two runs for all brushes and events.", "anchors": ["mypaint-brush.c: prepare_and_draw_dab, apply_smudge", "brushmodes.c: draw_dab_pixels_BlendMode_Normal_and_Eraser, draw_dab_pixels_BlendMode_Color", "mypaint-tiled-surface.c: draw_dab_internal, process_op"]}
{"id": "C89", "title": "Dynamics curves are accurate in single precision", "statement": "The value of a dynamics curve computed with floats is finite and within one two-millionth (2^-21) of the larger end of the segment from the exact line, at control points within that relative error of the value set there, and the value of a setting with all its curves is within (inputs+8)^2/2^24 of the largest curve from the exact sum.", "quantifier": "all curves with 2 to 64 points below 2^40 and gaps of at least 2^-40, all inputs, all mappings with up to 64 inputs after any history of calls", "why_tests_cant": "The rounding of eight operations varies with every value; tests sample inputs, while the bound must hold for all floats, and the failures (missed points, falling curves, overflow) sit at isolated values.", "anchors": ["mypaint-mapping.c: mypaint_mapping_calculate"]}
{"id": "C90", "title": "Angle arithmetic keeps its range in single precision", "statement": "For ordinary angles the remainder of an angle modulo 180 or 360 computed with floats lies between 0 and the modulus, the modulus included, and is off by at most one two-to-the-23rd of it; for angles that are not negative it is exact. The smallest difference of two angles lies between -180 and 180 and is their difference up to whole turns and rounding.", "quantifier": "all floats up to 2^23 degrees that are zero or not subnormal, all moduli that are multiples of 3", "why_tests_cant": "The quotient is rounded before its integral part is taken; that it never rounds across an integer depends on the spacing of floats near every multiple of the modulus.", "anchors": ["helpers.c: mod_arith, smallest_angular_difference", "mypaint-brush.c: update_states_and_setting_values"]}
{"id": "C91", "title": "The brush colour survives the conversion to HSV and back in single precision", "statement": "Converting a colour to hue, saturation and value and back with floats changes no component by more than 0.000002 and the largest component not at all; or the components differ by less than 0.00011 and the colour becomes grey. A colour of a picture comes back with every component the same or one unit of 1/32768 less when its components differ by at least four units, and as grey when they differ by at most three. Hue and saturation lie between 0 and 1.", "quantifier": "all colours whose components are floats from 0 to 1", "why_tests_cant": "The conversion has six sectors, two of which meet where the hue wraps around, and rounding can move a colour to the neighbouring sector; a sample of colours does not show the largest error.", "anchors": ["helpers.c: rgb_to_hsv_float, hsv_to_rgb_float", "mypaint-brush.c: prepare_and_draw_dab", "mypaint-tiled-surface.c: draw_dab_internal"]}
{"id": "C92", "title": "A pen that hovers paints nothing", "statement": "With a brush that is transparent without pressure, such as the default brush, and that has no pressure, events without pressure leave the picture as it is, and the brush stays without pressure; a new brush has no pressure, and after an event without pressure the brush has none.", "quantifier": "all brushes, all movements and durations of events, any number of blocks with any symmetry, all pictures", "why_tests_cant": "Every input other than the pressure may raise the opacity of a setting, pressure is interpolated between events, and a delayed event is split in two; a test tries one brush and one movement.", "anchors": ["mypaint-brush.c: mypaint_brush_stroke_to, update_states_and_setting_values, prepare_and_draw_dab", "mypaint-tiled-surface.c: draw_dab_internal"]}
{"id": "C93", "title": "A pen that rests paints nothing", "statement": "With a brush that has no dabs per second, no tracking noise and no slow tracking, once the pen has arrived at a place, further events at this place, with any pressure, tilt and duration, do not touch the surface.", "quantifier": "all such brushes, all strokes before, all events at the place, all kinds of surfaces and, for the tiled surface, any number of blocks with any symmetry", "why_tests_cant": "Fractions of dabs are carried over from event to event and must never add up to a dab, for histories of any length.", "anchors": ["mypaint-brush.c: mypaint_brush_stroke_to, count_dabs_to"]}
{"id": "C94", "title": "A hard brush at full opacity paints like a stencil", "statement": "A session with a round brush of radius at least 3, full opacity, hardness 1 and no anti-aliasing leaves in every pixel whose centre is in one of the dabs, or in one of their symmetric copies, exactly the colour of the brush (nothing, for an eraser), whatever was there before, and all other pixels exactly as they were.", "quantifier": "all such brushes, all pictures, all strokes in any number of blocks, any symmetry in force", "why_tests_cant": "Rounding in the mask, in its run-length coding and in the fixed-point blending, or dabs that overlap, could leave traces of the old picture in one pixel of one stroke; a test looks at few pixels.", "anchors": ["brushmodes.c: draw_dab_pixels_BlendMode_Normal, draw_dab_pixels_BlendMode_Normal_and_Eraser", "mypaint-tiled-surface.c: render_dab_mask, process_op, draw_dab_internal", "mypaint-brush.c: prepare_and_draw_dab"]}
{"id": "C95", "title": "The speed inputs follow the speed of the pen on the screen, whatever the number of dabs", "statement": "While the pen moves, the readings of the speed (and of the velocity for the offset by speed) approach the speed of the pen in screen pixels per second; the difference fades with the time that has passed and the slowness setting only, not with the number of events or dabs.", "quantifier": "all brushes with constant slowness and without tracking noise and slow tracking, all events up to a tenth of a second, movements of any number of events", "why_tests_cant": "The readings are updated at every dab and at the end of every event, with time steps that depend on the dynamics of the brush; a test sees one way of cutting up a movement.", "anchors": ["mypaint-brush.c: update_states_and_setting_values, mypaint_brush_stroke_to, exp_decay"]}
{"id": "C96", "title": "The power function that mixes pigments is total and accurate", "statement": "Pigment painting raises reflectances to powers with an approximate function that works on the bits of floats. For every reflectance and every weight that occurs it returns a positive finite number (no conversion overflows), the power to one part in 4000; a pigment with weight zero takes no part in the mixture.", "quantifier": "all single precision bases from 0 to 2 (accuracy: from 2^-15 to 2) and all exponents from 0 to 1", "why_tests_cant": "There are 10^18 pairs of a base and an exponent; a wrong constant or a wrong treatment of one exponent shows in few of them.", "anchors": ["fastapprox/fastlog.h: fastlog2", "fastapprox/fastexp.h: fastpow2", "fastapprox/fastpow.h: fastpow", "brushmodes.c: draw_dab_pixels_BlendMode_Normal_Paint"]}
{"id": "C97", "title": "Pigment painting on the machine does what its formula says, and keeps a colour painted over itself", "statement": "What a dab of pigment does to a pixel, with every rounding and the approximate power function, is within 34 of 32768 of the result of the same formula in real numbers, with the same alpha, and the pixel stays premultiplied. A dab over an opaque pixel of its own colour leaves it within 40 of 32768; painting on and on over the colour should keep it there.", "quantifier": "all brush colours, opacities, mask values and valid pixels; the normal mode, the one with locked alpha and the one that smudges and erases", "why_tests_cant": "The error depends on colours, opacity, mask and alpha at once, through two nonlinear functions and ten bands; a test compares a few pixels.", "anchors": ["brushmodes.c: draw_dab_pixels_BlendMode_Normal_Paint, draw_dab_pixels_BlendMode_LockAlpha_Paint, draw_dab_pixels_BlendMode_Normal_and_Eraser_Paint", "helpers.c: rgb_to_spectral, spectral_to_rgb", "fastapprox/fastpow.h: fastpow"]}
{"id": "C98", "title": "Smudging over an opaque picture brings in nothing new", "statement": "A brush that smudges in the old way, on a picture without transparent places, leaves no transparent place and makes no pixel brighter in any channel than the brightest place of the picture (and the brush colour, if it paints as well). A channel that is full everywhere stays full; so a picture of one pure colour is not changed at all by smudging.", "quantifier": "all opaque pictures, all brushes of this kind, with any size, speed, opacity, locked alpha and dynamics of these, all events and any symmetry in force, any order in which threads work", "why_tests_cant": "Smudging feeds the picture back into itself: an excess of one unit in the sampling or in the blending grows from dab to dab, and shows only after strokes of some length on some pictures.", "anchors": ["mypaint-brush.c: update_smudge_color, apply_smudge, prepare_and_draw_dab", "brushmodes.c: get_color_pixels_legacy, draw_dab_pixels_BlendMode_Normal, draw_dab_pixels_BlendMode_LockAlpha", "mypaint-tiled-surface.c: get_color_internal"]}
{"id": "C99", "title": "A round dab has no angle", "statement": "For a brush with round dabs the setting for the angle of the dabs changes nothing: the same strokes give the same picture with any angle. And turning any brush by half a turn changes nothing.", "quantifier": "all sessions and histories, all brushes with round dabs and all settings for the angle, with any dynamics; all brushes at all for half a turn; any symmetry in force", "why_tests_cant": "The angle enters the mask of every dab, the angles of its symmetric copies and the spacing of dabs; it must cancel for every place of a dab between the pixels and every angle, so one angle or one place tested says little.", "anchors": ["mypaint-brush.c: update_states_and_setting_values, count_dabs_to, prepare_and_draw_dab", "mypaint-tiled-surface.c: draw_dab, calculate_rr, calculate_rr_antialiased, sign_point_in_line"]}
{"id": "C100", "title": "A colour picked from the canvas is accurate", "statement": "Asking the surface for the colour under a dab, with the single precision of the machine, gives the colour that exact arithmetic would give, up to a small error that grows with the number of pixels sampled. From an area of one colour that colour is picked, and never anything outside the range of the colours and opacities that are there.", "quantifier": "all pixels and masks, any number of tiles and pixels (up to 250000 sampled), any sampling interval and any random numbers; all colours", "why_tests_cant": "Roundings of a running average accumulate over an unbounded number of pixels in an order that depends on random numbers; no test picture shows the worst of them.", "anchors": ["brushmodes.c: get_color_pixels_legacy, get_color_pixels_accumulate", "mypaint-tiled-surface.c: get_color_internal"]}
{"id": "C101", "title": "A one-pixel brush that snaps to pixels paints whole pixels", "statement": "A session with a hard, opaque brush of radius below 3/4 that snaps to pixels sets the pixels in which its dabs have their centres to exactly the brush colour (or to exactly transparent, for an eraser), whatever was there, and leaves every other pixel exactly as it was: there are no half-covered pixels, wherever between the pixels the pen goes and whatever the ratio and angle of the dab are.", "quantifier": "all sessions and histories without symmetry, all pictures, all brushes of this kind with any dynamics of the other settings", "why_tests_cant": "The anti-aliased mask of such small dabs depends on position, ratio and angle; that it is full in one pixel and empty in all others must hold for each of them.", "anchors": ["mypaint-brush.c: prepare_and_draw_dab (snap_to_pixel)", "mypaint-tiled-surface.c: calculate_rr_antialiased, render_dab_mask"]}
{"id": "C102", "title": "With slow tracking the brush trails behind the pen and catches up in a time set by the setting alone", "statement": "With slow tracking the place of the brush after any sequence of calls is determined by where the pen was when, and by the setting; resets, pauses, pressure and the number of dabs do not matter. While the pen is held at a place the distance that is left fades with the time that has passed and the setting only, not with the number of events that report it, and the brush gets as near as one likes in a time known beforehand. The movement of the pen between the events should not matter either, that is, reporting the same movement more often should smooth it in the same way.", "quantifier": "all sequences of calls with positive times on the canvas, all brushes without tracking noise, all surfaces", "why_tests_cant": "A recorded stroke fixes the rate and the times of the events; independence of them is a statement about all ways of reporting a movement.", "anchors": ["mypaint-brush.c: mypaint_brush_stroke_to_internal (slow tracking, workaround for pressure), exp_decay, reset_brush"]}
{"id": "C103", "title": "The direction inputs read the direction of a straight stroke", "statement": "While the pen moves on a straight line, back and forth, with or without slow tracking, the direction input of every dab is the angle of the line (in half turns, plus the rotation of the view), so dabs whose angle follows the direction lie along the stroke however the view is turned. While it moves ahead only, the direction angle input of every dab is the angle of the movement in full turns. After a reset the brush takes up the direction as soon as it has moved. Resting does not change the direction.", "quantifier": "all straight lines, all sequences of events on them with pauses up to five seconds, all zooms and rotations of the view, all brushes without tracking noise, all surfaces", "why_tests_cant": "The direction is filtered over the whole history of the stroke; a recorded stroke shows one history at one angle and one sequence of view rotations.", "anchors": ["mypaint-brush.c: update_states_and_setting_values (direction filter, direction and direction angle inputs, elliptical dab angle)"]}
{"id": "C104", "title": "Pressure, tilt and rotation of the pen reach the dabs, interpolated along the way", "statement": "Every dab that an event paints reads the pen at its part of the way from the previous event to this one: the pressure, the declinations, the ascension and the barrel rotation are interpolated linearly, the angles the shorter way round, and the dab is drawn at that part of the way; the dabs come in the order of the way. The attack angle is the angle from the pen to the stroke. When the pen touches the canvas after a pause of more than 0.1 seconds, the dabs painted on the way over read no pressure. A pen held upright reads the declination 90 and the tilts 0, whenever the dabs are painted.", "quantifier": "all sequences of events, with resets and pauses before the two events in question, all pens on the canvas, all views, all brushes without tracking noise and slow tracking, all surfaces", "why_tests_cant": "What a dab reads depends on where it falls between two events, on full turns of earlier events and on the pause before; a recorded stroke shows some dabs of one stroke.", "anchors": ["mypaint-brush.c: mypaint_brush_stroke_to", "mypaint-brush.c: update_states_and_setting_values", "brushsettings.json: inputs pressure, tilt_declination, tilt_ascension, tilt_declinationx, tilt_declinationy, attack_angle, barrel_rotation"]}
{"id": "C105", "title": "The stroke input measures the way of the pen, and starts again after the hold time", "statement": "While the pen is pressed, the stroke input is the way of the brush since the stroke began, divided by the length that the stroke duration setting gives (relative to the radius), up to 1; it is then held at 1 for the hold time (in the same unit) and starts again from 0, and with the documented infinite hold time (9.9 or more) it stays at 1. It begins at 0 when the pressure rises above the threshold. The way between two events counts whether or not dabs are painted on it, in however many steps the engine takes, and a dab reads the input at its place.", "quantifier": "all sequences of events of pressed pens on the canvas, all ways and pressures, all brushes without tracking noise and slow tracking, all hold times and durations, all surfaces", "why_tests_cant": "The way is summed over a number of steps that depends on the dabs, and wraps around after an unbounded number of events; a test stroke shows the sum of a few.", "anchors": ["mypaint-brush.c: update_states_and_setting_values", "mypaint-brush.c: mypaint_brush_stroke_to", "brushsettings.json: input stroke, settings stroke_duration_logarithmic, stroke_holdtime, stroke_threshold"]}
{"id": "C106", "title": "The grid map inputs read the place of the brush on the grid", "statement": "The grid map inputs of a dab are its coordinates on a grid with cells of 256 pixels times the grid map scale, divided by the scale of the axis, mapped to 0 to 256: dabs that lie a number of cells apart read the same, on all parts of the canvas.", "quantifier": "all sequences of events before two consecutive events, all pens on the canvas, all scales of the grid (constant, positive along the axes), all brushes without slow tracking, all surfaces", "why_tests_cant": "The input depends on the place of each dab on an unbounded canvas, on the sign of the coordinates and on the order of updates within a step.", "anchors": ["mypaint-brush.c: update_states_and_setting_values", "brushsettings.json: inputs gridmap_x, gridmap_y, settings gridmap_scale, gridmap_scale_x, gridmap_scale_y"]}
{"id": "C107", "title": "A brush without paint of its own leaves an empty canvas empty", "statement": "A brush that at every moment either only smudges, or erases completely, or has its alpha fully locked, or fully colorizes or posterizes, and that has not taken up any paint yet, leaves an empty canvas empty, and does not take up paint from it.", "quantifier": "all sequences of blocks of events, all symmetries, pigment mixing or not, all dynamics that satisfy the condition for every input, with and without smudge buckets, all schedules of tiles", "why_tests_cant": "Whether a trace of colour appears depends on the rounding of the fixed-point blend modes, on what a smudging brush picks up of tiles that do not exist yet and on when it samples; a session on an empty canvas tries one such course.", "anchors": ["brushmodes.c: draw_dab_pixels_BlendMode_*", "mypaint-tiled-surface.c: get_color_internal", "mypaint-brush.c: update_smudge_color, apply_smudge, prepare_and_draw_dab"]}
{"id": "C108", "title": "Painting is a local matter; strokes apart from each other can be painted in any order", "statement": "What a brush paints at the pixels of a region does not depend on the canvas elsewhere, if the brush picks no colours up or picks them up in the region only: the same events on two canvases that agree in the region give canvases that agree in the region, and the same brush. Two brushes that each paint, and pick colours up, in an area of their own give the same picture in either order, and end in the same states.", "quantifier": "all sequences of blocks of events, all brushes with bounded dabs (scatter, offsets and snapping included), smudging or not, all canvases, all pairs of areas without a common pixel; the order: no symmetry", "why_tests_cant": "A dependence on something far away would show in a combination of canvases and brushes nobody tries; how far a brush looks and paints depends on radius, smudge radius, scatter, offsets and the rounding of positions.", "anchors": ["mypaint-brush.c: prepare_and_draw_dab, update_smudge_color", "mypaint-tiled-surface.c: draw_dab, get_color_internal, render_dab_mask", "brushmodes.c: get_color_pixels_accumulate"]}
{"id": "C109", "title": "How fast the pen moves and how far the view is zoomed in does not matter to a brush that does not use them", "statement": "With a brush that has no curves for the speed, no offset by speed, no dabs per second, no slow tracking and no tracking noise, the same way of the pen at any other pace gives the same picture, as long as pauses stay pauses (of more than a tenth of a second, and of more than five seconds). With a brush without curves for the zoom and the direction and without offsets in the direction of the stroke, the same way under any other zoom of the view gives the same picture. Afterwards the brush is the same, up to what it knows about the speed, the clocks for splitting strokes, the zoom and the direction.", "quantifier": "all brushes with those settings off (smudging, scatter by radius, stroke and custom inputs included), all sequences of blocks of events and all other times and zooms event by event, all surfaces and symmetries; also whether and how the program aborts", "why_tests_cant": "Time and zoom enter a dozen formulas of the engine: speeds, decay factors, the stroke length and the number of dabs; that they cancel out or are never read has to hold for every combination of settings and events.", "anchors": ["mypaint-brush.c: update_states_and_setting_values, count_dabs_to, mypaint_brush_stroke_to_internal, prepare_and_draw_dab"]}
{"id": "C110", "title": "With the radius of the brush the whole stroke is resized", "statement": "The same stroke drawn c times as large, with a brush whose radius is c times as large, in a view zoomed out by the same factor, gives the same dabs c times as large: as many of them, at c times the places, with c times the radius, and with the same colour, opacity, hardness, shape and modes. Speed, direction and stroke inputs, offsets, scatter, slow tracking and random radii take part. The brush ends in the same state.", "quantifier": "all sequences of motion events, all factors, all brushes without curves for the radius, zoom and grid inputs that pick up no colours, do not snap to pixels, have no tracking noise, and stay within the limits for radius, offset and anti-aliasing at both sizes", "why_tests_cant": "Lengths enter dozens of formulas, some relative to the radius and some in pixels of the screen; a single length that is not scaled changes the look of a brush at other sizes, but only for the settings that use it.", "anchors": ["mypaint-brush.c: update_states_and_setting_values, directional_offsets, prepare_and_draw_dab, count_dabs_to, mypaint_brush_stroke_to_internal"]}
{"id": "C111", "title": "In a turned view the same movement of the pen gives the same dabs, turned", "statement": "When the view is turned by any angle and the pen makes the same movement on the screen, the brush makes the same dabs, turned on the canvas by that angle: as many of them, at the turned places, with the angle of elongated dabs turned, and everything else equal. This also holds for brushes that follow the direction of the stroke.", "quantifier": "all angles, all sequences of motion events, all brushes that pick up no colours, do not scatter or snap, have no tracking noise, and have no offsets along the axes of the canvas", "why_tests_cant": "The rotation of the view enters the angle of the dabs, the spacing of elongated dabs, offsets, and four inputs, each with its own sign and range; tests use a view that is not turned.", "anchors": ["mypaint-brush.c: update_states_and_setting_values, directional_offsets, prepare_and_draw_dab, count_dabs_to, mypaint_brush_stroke_to_internal"]}
{"id": "C112", "title": "One bad value from the tablet does not spoil what follows", "statement": "When a motion event reports a coordinate, a pressure or a time that is infinite or not a number, the damage ends with that event: later events with good values give dabs at finite places that read finite pressures.", "quantifier": "all brushes, all sequences of motion events and resets, every position of the bad event in them, and whatever the rest of the engine decides about the number and the places of the dabs", "why_tests_cant": "The library checks coordinates, tilt and time against some bad values; whether a value that is not a number passes a comparison and stays in the state for ever shows only in histories that no test plays.", "anchors": ["mypaint-brush.c: mypaint_brush_stroke_to, update_states_and_setting_values, exp_decay, mypaint_brush_reset"]}
{"id": "C113", "title": "A mirrored stroke gives the mirrored picture", "statement": "Painting the mirror image of a stroke (pen positions mirrored at an upright line, view rotation and the settings for the dab angle and the horizontal offset negated) gives the mirror image of every dab, and, for lines between pixels or through pixels and brushes that are not tiny, the mirror image of the picture pixel by pixel.", "quantifier": "all brushes that do not use the direction of the stroke or random scatter, all motion event sequences, all positions of the line, and all divisions into atomic blocks", "why_tests_cant": "The engine computes the number of dabs, their places and their angles with signs, remainders and low-pass filters; that each step treats left and right alike has to be shown for all states and events.", "anchors": ["mypaint-brush.c: mypaint_brush_stroke_to_2, count_dabs_to, prepare_and_draw_dab, directional_offsets", "mypaint-tiled-surface.c: draw_dab_internal", "helpers.c: mod_arith"]}
{"id": "C114", "title": "Symmetry paints what one would paint by hand", "statement": "With mirroring at an upright line, a session of strokes on one side of the line gives the same colours as painting, without symmetry, first the same strokes and then their mirror images with the mirrored brush; only pixels through which the line goes may differ.", "quantifier": "all brushes with dabs of a radius of at least 3 that can be mirrored, all motion event sequences on one side of the line, all divisions of each session into atomic blocks, all thread schedules and all previous pictures", "why_tests_cant": "The library paints each dab and its copy in turn, by hand the copies come after all the others and from a separate run of the brush engine; that the order and the engine's state do not matter has to be shown for whole sessions.", "anchors": ["mypaint-tiled-surface.c: draw_dab_2, draw_dab_internal", "mypaint-symmetry.c: mypaint_update_symmetry_state", "mypaint-brush.c: mypaint_brush_stroke_to_2"]}
{"id": "C115", "title": "In a turned view a brush follows the tilt of the pen as the artist sees it", "statement": "When the view is turned and the pen is held and moved as before on the screen, the inputs for the direction of the tilt and the angle of attack read the same, and the offset of the dabs that follows the tilt goes to the same side of the screen.", "quantifier": "all brushes, brush states, rotations of the view, and ways in which an application may report the tilt", "why_tests_cant": "Whether there is any way of reporting the tilt that makes both right is a question about all of them; the effects also depend on continuous angles.", "anchors": ["mypaint-brush.c: update_states_and_setting_values (INPUT TILT_ASCENSION, ATTACK_ANGLE), directional_offsets", "mypaint-brush.c: mypaint_brush_stroke_to_2 (xtilt, ytilt)"]}
{"id": "C116", "title": "Offsets that follow the stroke lie beside it", "statement": "On a straight stroke the dabs of a brush with a directional offset lie beside the stroke at exactly the distance that the settings ask for: with the one-sided offset all on the same side, with the mirrored offset in turn on both sides.", "quantifier": "all brushes with constant directional offsets and no other displacement, all straight lines and directions, and all motion event sequences ahead on the line, with rests and changes of the view rotation", "why_tests_cant": "The side of a dab comes from a filtered direction, an angle modulo full turns and a sign that changes with every dab; that they stay in step through all events has to be shown by induction over the session.", "anchors": ["mypaint-brush.c: directional_offsets, prepare_and_draw_dab, mypaint_brush_stroke_to_2 (FLIP)", "brushsettings.json: offset_angle, offset_angle_2, offset_multiplier"]}
{"id": "C117", "title": "The colour settings of a brush change the colour as they say", "statement": "Every dab of a brush that does not smudge has the chosen colour with its hue turned, its saturation, value and lightness changed by the values of the settings at some moment of the stroke, value and lightness staying from 0 to 1, on linear surfaces with the gamma taken off and put back. The hue setting keeps the largest and smallest component, does nothing at whole turns, gives the opposite colour at one half and exchanges the primaries at one third; the value setting scales all components alike; saturation moves them towards or away from grey, downwards for negative settings; a lightness of 1 gives white and of -1 black; greys stay grey. A colour that is grey, or black, has no hue, whatever hue the brush is set to.", "quantifier": "all brushes that do not smudge, all motion event sequences, surfaces, generators, and both encodings of the colours", "why_tests_cant": "The colour goes through two conversions forth and back, each with six sectors, two branches and clamping, with settings that vary with nineteen inputs; a test sees a few colours, not the identities over all of them.", "anchors": ["mypaint-brush.c: prepare_and_draw_dab (1148-1190)", "helpers.c: rgb_to_hsv_float, hsv_to_rgb_float, rgb_to_hsl_float, hsl_to_rgb_float", "brushsettings.json: change_color_h, change_color_l, change_color_hsl_s, change_color_v, change_color_hsv_s"]}
{"id": "C118", "title": "The custom input follows its setting with the dabs", "statement": "The input that a brush sets for itself moves towards the value that the settings ask for by a fixed fraction with each dab, whatever the time between the dabs; without slowness it has that value at once. It never leaves the range of 0 and of the values that are asked for.", "quantifier": "all brushes, brush states and sequences of motion events", "why_tests_cant": "What a dab reads depends on the whole history of the dabs and events before it; a test sees single histories, and the lag of one step is invisible in most of them.", "anchors": ["mypaint-brush.c: update_states_and_setting_values (CUSTOM_INPUT)", "mypaint-brush.c: mypaint_brush_stroke_to_2 (the dab loop and the step after it)", "brushsettings.json: custom_input, custom_input_slowness"]}
{"id": "C119", "title": "Offset by speed draws ahead of the pen or behind it", "statement": "With a constant offset by speed c and a constant slowness for it, each dab of an event is displaced from the place of the pen by c times the way that the pen makes in a tenth of a second at its smoothed velocity: for c > 0 towards where the pen moves, for c < 0 towards where it comes from; when the pen rests the offset fades away. On a straight stroke from rest, all dabs lie on the line of the stroke, displaced by the sign of the setting. (No slow tracking, tracking noise or other offsets; events at most 0.1 s apart.)", "quantifier": "all brushes as described, brush states, velocities and sequences of motion events", "why_tests_cant": "The smoothed velocity depends on the whole history of the pen; a test fixes one path and one velocity.", "anchors": ["mypaint-brush.c: update_states_and_setting_values (NORM_DX_SLOW, NORM_DY_SLOW)", "mypaint-brush.c: prepare_and_draw_dab (OFFSET_BY_SPEED)", "brushsettings.json: offset_by_speed, offset_by_speed_slowness"]}
{"id": "C120", "title": "The looks of the dabs do not change where they are", "statement": "Two brushes that differ only in settings for the looks of a dab (colour and its changes, opacity, hardness, softness, anti-aliasing, smudging, eraser, alpha lock, colorize, posterize, pigment) make the same number of dabs in the same places with the same proportions and directions for the same motion events, on whatever surfaces, provided that no dab is left out for the transparency of the canvas. They may differ in the random variation of the radius too if nothing else about the places is random.", "quantifier": "all pairs of brushes as described, brush states, surfaces, random numbers and sequences of motion events", "why_tests_cant": "It relates two runs of the engine over all brushes, histories and surfaces; a test compares single pairs.", "anchors": ["mypaint-brush.c: mypaint_brush_stroke_to_2", "mypaint-brush.c: count_dabs_to", "mypaint-brush.c: prepare_and_draw_dab", "brushsettings.json: radius_by_random (tooltip: does not change the actual radius seen by dabs_per_actual_radius)"]}
{"id": "C121", "title": "Dabs of random size carry no more paint", "statement": "When the radius varies at random, a dab that comes out bigger than the settings ask for is made more transparent so that its area times its opacity stays that of a dab as asked for; a smaller dab keeps the opacity. So no dab carries more paint, nor is more opaque, than asked for. (Without anti-aliasing and snapping to pixels, which change the radius once more.)", "quantifier": "all brushes as described, random numbers, brush states and sequences of motion events", "why_tests_cant": "It must hold for every random number and every combination of radius, opacity and overlap; a test sees a few draws of the generator.", "anchors": ["mypaint-brush.c: prepare_and_draw_dab (RADIUS_BY_RANDOM, alpha correction)", "brushsettings.json: radius_by_random (tooltip: the opaque value will be corrected such that a big-radius dabs is more transparent)"]}
{"id": "C122", "title": "The smudge colour follows the canvas as the smudge length says", "statement": "With each dab a smudging brush looks at the canvas once and keeps, of the paint that it carries, the part that the smudge length gives, filling up with the paint that it finds; the dab is painted with what it carries then to the smudge amount and with the brush colour for the rest. On a canvas of one colour the difference shrinks by the smudge length with each dab. With the smudge length 0 the carried colour becomes that of the canvas at once, with 1 it never changes and the canvas is not looked at.", "quantifier": "all brushes that smudge in the old way by a constant amount and length, all brush states, all canvases that answer any colour at any place and time, all sessions of any length with events up to five seconds", "why_tests_cant": "What a dab is painted with depends on everything that was found on the canvas before it, on whatever canvas.", "anchors": ["mypaint-brush.c: update_smudge_color, apply_smudge, prepare_and_draw_dab, mypaint_brush_stroke_to_internal", "brushsettings.json: smudge, smudge_length"]}
{"id": "C123", "title": "The number of dabs is what the length of the way and the time ask for", "statement": "A brush with constant rates gives the surface as many dabs as the length of the way in radii and the time in seconds ask for, counted with the part of a dab that was pending, whatever the way of the pen, however it is cut into motion events and whatever the other settings do. A brush with dabs for the time only paints by the clock, wherever the pen is.", "quantifier": "all brushes of round dabs with constant rates that do not look at the canvas (any dynamics of all other settings; of the radius too unless dabs are asked for each actual radius), all brush states after the first movement, all sessions of any length with events up to five seconds", "why_tests_cant": "The count is the sum over any number of movements of any length and time, with fractions carried from each to the next.", "anchors": ["mypaint-brush.c: count_dabs_to, mypaint_brush_stroke_to_internal", "brushsettings.json: dabs_per_basic_radius, dabs_per_actual_radius, dabs_per_second"]}
{"id": "C124", "title": "A smudging brush looks at the canvas once in a fixed number of dabs", "statement": "What a smudging brush has found on the canvas fades by the smudge length with each dab, and the brush looks again when it has faded below a limit set by the smudge length multiplier: exactly once in N dabs, at the first of them, with N given by the two settings. With a greater multiplier it looks less often; without multiplier it looks at each dab, with a multiplier of 1 or more at most at every second dab.", "quantifier": "all brushes with constant smudge length below 1 and constant multiplier, any smudge amount other than 0, pigment or not, without transparency limit and buckets; all canvases, all sessions of any length with events up to five seconds, from an empty smudge memory", "why_tests_cant": "The number of looks is counted over sessions of any length on any canvas, for all values of the two settings.", "anchors": ["mypaint-brush.c: update_smudge_color, prepare_and_draw_dab", "brushsettings.json: smudge_length, smudge_length_log"]}
{"id": "C125", "title": "With slow tracking per dab the dabs trail behind by as many dabs as the setting says", "statement": "With a slow tracking per dab of T the dabs trail behind the pen by no more than T times the distance between two dabs, so that every dab lies that near to the way of the pen; what the brush is farther behind at first goes away exponentially with the dabs. On a straight way the dabs get between T-1 and T such distances behind as the number of dabs grows. Neither the time that passes nor the number of events that report the movement changes these bounds.", "quantifier": "all brushes with a constant slow tracking per dab and constant dab rates, all ways of the pen through any places, all splittings into events up to five seconds apart, all positions of the brush at the beginning", "why_tests_cant": "The place of a dab depends on the whole way before it and on how it was chopped into events.", "anchors": ["mypaint-brush.c: update_states_and_setting_values, exp_decay, mypaint_brush_stroke_to_internal, prepare_and_draw_dab", "brushsettings.json: slow_tracking_per_dab"]}
{"id": "C126", "title": "Pressing harder never paints less", "statement": "With a brush whose curves for the pressure belong to the opacity settings only and rise, the same movement of the pen with at least as much pressure in every event gives as many dabs, in the same places, with the same size, shape and colour, each at least as opaque. This holds whatever else the brush does: slow tracking, tracking noise, scatter, random size and colour, linearised opacity, snapping, curves for any other input but the stroke. The brush does not smudge, and events come at most a tenth of a second apart. A curve whose control points rise gives rising values between, left and right of them, steps included. With a brush that paints plainly (no locked alpha, colorize, posterize, pigment or eraser) no pixel of the picture is more transparent after the stroke with more pressure, with symmetry or without, however the events are grouped into blocks.", "quantifier": "every brush with such curves, every two lists of motion events that differ in the pressure only, every state of the brush and its random numbers, every rising curve and every pair of inputs", "why_tests_cant": "the two strokes run through the whole engine side by side, with random numbers and filters in between; a test compares a few strokes only", "anchors": ["mypaint-brush.c: mypaint_brush_stroke_to_internal, update_states_and_setting_values, prepare_and_draw_dab", "mypaint-mapping.c: mypaint_mapping_calculate", "brushmodes.c: draw_dab_pixels_BlendMode_Normal", "mypaint-tiled-surface.c: draw_dab, process_op"]}
{"id": "C127", "title": "A more opaque brush never paints less, an eraser never leaves more", "statement": "Turning up the base value of the opacity or its multiplier, whatever curves the brush has, gives for the same motion events the same dabs in the same places with the same size, shape and colour, each at least as opaque (the brush does not smudge). If the brush paints plainly, no pixel of the picture is more transparent. If it is a full eraser (eraser at least 1), no pixel keeps more alpha or more of any colour. The same holds for a full eraser that is pressed harder, with curves as in C126. All this with symmetry or without, however the events are grouped into blocks.", "quantifier": "every pair of brushes that differ in the opacity only, every list of motion events (pauses included), every canvas, brush state and random number, every way of grouping the events into blocks", "why_tests_cant": "the two strokes run through the whole engine and the blending of every pixel side by side; a test compares a few strokes and pixels only", "anchors": ["mypaint-brush.c: prepare_and_draw_dab (OPAQUE, OPAQUE_MULTIPLY, OPAQUE_LINEARIZE, ERASER)", "mypaint-mapping.c: mypaint_mapping_set_base_value, mypaint_mapping_calculate", "brushmodes.c: draw_dab_pixels_BlendMode_Normal_and_Eraser", "mypaint-tiled-surface.c: process_op"]}
{"id": "C128", "title": "A harder or less soft edge never paints less", "statement": "A brush that differs from another in opacity, hardness and softness only, and for all inputs is no less opaque, no less hard and no softer, gives for the same motion events the same dabs in the same places with the same shape and colour, each no less opaque, no less hard and no softer (the brush does not smudge). They also have the same size, except that anti-aliasing, if the hardness differs, may make them bigger, never smaller. If the dabs have the same size or a radius of at least three pixels, every pixel gets no less of each. So if the brush paints plainly no pixel of the picture is more transparent, and if it is a full eraser no pixel keeps more alpha or more of any colour, with symmetry or without, however the events are grouped into blocks.", "quantifier": "every pair of brushes that differ in opacity, hardness and softness only, every list of motion events (pauses included), every canvas, brush state and random number, every way of grouping the events into blocks", "why_tests_cant": "the two strokes run through the whole engine, the mask of every dab and the blending of every pixel side by side; a test compares a few strokes and pixels only", "anchors": ["mypaint-brush.c: prepare_and_draw_dab (HARDNESS, SOFTNESS, ANTI_ALIASING)", "mypaint-tiled-surface.c: render_dab_mask, calculate_opa, draw_dab_internal", "brushmodes.c: draw_dab_pixels_BlendMode_Normal, draw_dab_pixels_BlendMode_Normal_and_Eraser"]}
{"id": "C129", "title": "A bigger, harder or more opaque dab never covers less", "statement": "A block of dabs drawn directly on a surface, and one in which each dab is in the same place with the same colour, aspect ratio and angle, but no less opaque, no less hard, no softer and no smaller: after the second no pixel is more transparent (dabs of plain paint), or keeps more alpha or more of any colour (erasing dabs), with symmetry or without and whatever the order in which tiles are drawn, provided that each pair of dabs has the same radius or a radius of at least three pixels. Below three pixels it is false: a dab of radius 2.99 covers more than the same dab of radius 3.", "quantifier": "all pairs of lists of dabs in such a relation, all surfaces between blocks and their symmetry settings, all orders of processing the tiles, all pixels", "why_tests_cant": "the size of a dab, its mask, the tiles it is queued for and the blending of every pixel all change with its arguments; a test compares a few dabs and pixels only", "anchors": ["mypaint-tiled-surface.c: draw_dab_2, draw_dab_internal, process_op, render_dab_mask, calculate_rr, calculate_rr_antialiased", "mypaint-tiled-surface.c: tiled_surface_end_atomic"]}
{"id": "C130", "title": "A stronger brush brings an opaque picture at least as near to its colour", "statement": "On an opaque canvas a brush that paints plainly and neither smudges nor changes its colour moves the colour channels of the pixels towards its own colour. A brush that differs from it only in being more opaque, harder or less soft (with dabs of the same size, or of a radius of at least three pixels) leaves, after the same motion events, every channel of every pixel between the value the first leaves and the colour of the brush, and the canvas opaque. The same holds for dabs of one colour drawn directly on a surface.", "quantifier": "every pair of such brushes or lists of dabs, every list of motion events, every opaque valid canvas, brush state and random number, every way of grouping the events into blocks, all pixels", "why_tests_cant": "every dab of both strokes rounds every pixel, and the two pictures differ after the first dab; that the order survives all later dabs needs an invariant over whole sessions", "anchors": ["mypaint-brush.c: prepare_and_draw_dab", "mypaint-tiled-surface.c: render_dab_mask, process_op, draw_dab_internal", "brushmodes.c: draw_dab_pixels_BlendMode_Normal"]}
{"id": "C131", "title": "Plain paint moves opaque pixels towards the colour of the brush and not past it", "statement": "Painting with a brush that paints plainly and neither smudges nor changes its colour leaves opaque pixels opaque. Every colour channel of them ends between its old value and the colour of the brush, however many dabs, strokes and symmetric copies there are. So pixels that are opaque and have the colour of the brush already are left exactly as they are: painting a colour over itself does nothing.", "quantifier": "every such brush, every list of motion events, every valid canvas, brush state, symmetry in force and random number, every way of grouping the events into blocks, all opaque pixels", "why_tests_cant": "each dab rounds each channel; that the errors of any number of dabs never carry a channel past the colour or away from it needs an invariant over whole sessions", "anchors": ["mypaint-brush.c: prepare_and_draw_dab", "mypaint-tiled-surface.c: process_op, draw_dab_internal", "brushmodes.c: draw_dab_pixels_BlendMode_Normal"]}
{"id": "C132", "title": "Red, green and blue are treated alike and do not influence each other", "statement": "Without colorize and pigments, drawing dabs makes each colour channel of the picture from the same channel of the old picture and of the dabs and from the transparency, in the same way for red, green and blue. If the channels of the picture and of the colours of the dabs are exchanged, or one is put in the place of another, the new picture is the old result with the same exchange, bit by bit.", "quantifier": "every exchange or selection of channels, every list of dabs without colorize and pigments (paint, erasing, locked alpha, posterize and mixtures of them), every canvas, symmetry and order of the tiles, all pixels", "why_tests_cant": "relates the pictures of all canvases and all colours; a test compares a few", "anchors": ["mypaint-tiled-surface.c: draw_dab_internal, process_op", "brushmodes.c: draw_dab_pixels_BlendMode_Normal, draw_dab_pixels_BlendMode_Normal_and_Eraser, draw_dab_pixels_BlendMode_LockAlpha, draw_dab_pixels_BlendMode_Posterize"]}
