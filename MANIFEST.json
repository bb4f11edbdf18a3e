{
 "claims": [
  {
   "property": "C01",
   "status": "proved",
   "theorems": [
    "Verif.Fifo.fifo_refines_list",
    "Verif.Fifo.fifo_free_exact"
   ],
   "note": ""
  },
  {
   "property": "C02",
   "status": "proved",
   "theorems": [
    "Verif.TileMap.slots_in_bounds_and_distinct",
    "Verif.TileMap.larger_sizes_overflow",
    "Verif.TileMap.tile_map_is_a_function"
   ],
   "note": "larger_sizes_overflow shows the size limit is sharp."
  },
  {
   "property": "C03",
   "status": "proved",
   "theorems": [
    "Verif.OpQueue.queue_refines_spec"
   ],
   "note": ""
  },
  {
   "property": "C04",
   "status": "proved",
   "theorems": [
    "Verif.OpQueue.dirty_tiles_complete"
   ],
   "note": ""
  },
  {
   "property": "C05",
   "status": "partial",
   "theorems": [
    "Verif.OpQueue.add_outcome",
    "Verif.OpQueue.add_can_abort",
    "Verif.OpQueue.add_can_overflow",
    "Verif.OpQueue.add_never_aborts_partial"
   ],
   "note": "The code violates the full property: add_can_abort and add_can_overflow are concrete witnesses; add_outcome characterises exactly when it happens."
  },
  {
   "property": "C06",
   "status": "proved",
   "theorems": [
    "Verif.Surf.deferred_eq_immediate",
    "Verif.Surf.deferred_never_faults_partial"
   ],
   "note": "deferred_never_faults_partial bounds when the session cannot fault (C05 limits it)."
  },
  {
   "property": "C07",
   "status": "proved",
   "theorems": [
    "Verif.Surf.processing_order_irrelevant",
    "Verif.Surf.interleaving_irrelevant"
   ],
   "note": ""
  },
  {
   "property": "C08",
   "status": "proved",
   "theorems": [
    "Verif.Surf.sampling_does_not_change_canvas",
    "Verif.Surf.deferred_eq_immediate"
   ],
   "note": ""
  },
  {
   "property": "C09",
   "status": "partial",
   "theorems": [
    "Verif.Full.changed_pixels_reported_partial",
    "Verif.Full.changes_not_reported",
    "Verif.Full.invisible_last_dab_hides_all",
    "Verif.Full.changes_not_reported_after_toggle"
   ],
   "note": "Holds for every history if the last dab of the block is visible (or none is) and symmetry is not toggled inside the block. False otherwise; both failures proved with a concrete session."
  },
  {
   "property": "C10",
   "status": "proved",
   "theorems": [
    "Verif.Rect.expandPoint_is_hull",
    "Verif.Rect.expand_points_is_bounding_box",
    "Verif.Rect.expandRect_is_hull",
    "Verif.Rect.expandRect_empty_not_neutral"
   ],
   "note": "expandRect_empty_not_neutral: the empty rectangle is not a neutral element of expand_to_include_rect."
  },
  {
   "property": "C11",
   "status": "proved",
   "theorems": [
    "Verif.Dab.dab_pixelwise",
    "Verif.Dab.dab_defined",
    "Verif.Dab.dab_bounded",
    "Verif.Dab.visible_in_tiles",
    "Verif.Mask.dab_mask_exact"
   ],
   "note": "Floating point positions are elements of an ordered field."
  },
  {
   "property": "C12",
   "status": "proved",
   "theorems": [
    "Verif.Dab.invisible_iff_nothing_queued",
    "Verif.Dab.prepare_valid"
   ],
   "note": ""
  },
  {
   "property": "C13",
   "status": "proved",
   "theorems": [
    "Verif.Mask.mask_round_trip",
    "Verif.Mask.mask_visits_inside_tile",
    "Verif.Mask.dab_mask_exact"
   ],
   "note": ""
  },
  {
   "property": "C14",
   "status": "proved",
   "theorems": [
    "Verif.Mask.mask_fits",
    "Verif.Mask.mask_of_checkerboard_overruns"
   ],
   "note": "mask_of_checkerboard_overruns shows the buffer would not fit arbitrary masks."
  },
  {
   "property": "C15",
   "status": "proved",
   "theorems": [
    "Verif.Mask.opacity_profile",
    "Verif.Mask.opacity_profile_hard",
    "Verif.Mask.opa_in_unit_interval",
    "Verif.Mask.opacity_distance"
   ],
   "note": ""
  },
  {
   "property": "C16",
   "status": "partial",
   "theorems": [
    "Verif.Blend.normal_valid",
    "Verif.Blend.normalAndEraser_valid",
    "Verif.Blend.lockAlpha_valid",
    "Verif.Blend.normalPaint_valid",
    "Verif.Blend.normalAndEraserPaint_valid",
    "Verif.Blend.lockAlphaPaint_outcome",
    "Verif.Blend.posterize_breaks_validity",
    "Verif.Blend.posterize_valid_partial",
    "Verif.Blend.posterize_valid_on_opaque",
    "Verif.Dab.session_keeps_canvas_valid_partial"
   ],
   "note": "Full property false of the code: posterize_breaks_validity."
  },
  {
   "property": "C17",
   "status": "proved",
   "theorems": [
    "Verif.Blend.normal_is_over",
    "Verif.Blend.normal_error_can_exceed_one",
    "Verif.Blend.normal_zero",
    "Verif.Blend.normal_full",
    "Verif.Blend.normal_between",
    "Verif.Blend.normal_alpha_mono"
   ],
   "note": ""
  },
  {
   "property": "C18",
   "status": "proved",
   "theorems": [
    "Verif.Blend.alpha_locked",
    "Verif.Blend.colorize_alpha",
    "Verif.Blend.transparent_stays",
    "Verif.Dab.locked_dab_keeps_alpha"
   ],
   "note": ""
  },
  {
   "property": "C19",
   "status": "proved",
   "theorems": [
    "Verif.Blend.erase_only_removes",
    "Verif.Blend.erase_full",
    "Verif.Blend.erase_reaches_zero",
    "Verif.Blend.erase_too_weak",
    "Verif.Blend.eraser_alpha_le_normal",
    "Verif.Blend.eraser_full_alpha_is_normal",
    "Verif.Dab.erasing_dab_only_removes"
   ],
   "note": "Repeated erasing reaches transparency iff mask*opacity is at least one unit."
  },
  {
   "property": "C20",
   "status": "partial",
   "theorems": [
    "Verif.Blend.colorize_white_black_faults",
    "Verif.Blend.colorize_not_always_defined",
    "Verif.Blend.colorize_defined_partial"
   ],
   "note": "Full property false of the code (division by zero on white pixels)."
  },
  {
   "property": "C21",
   "status": "proved",
   "theorems": [
    "Verif.Blend.posterize_nearest",
    "Verif.Blend.posterize_idempotent"
   ],
   "note": ""
  },
  {
   "property": "C22",
   "status": "proved",
   "theorems": [
    "Verif.Sample.getColor_average",
    "Verif.Sample.getColor_legacy",
    "Verif.Sample.getColor_range",
    "Verif.Sample.average_uniform",
    "Verif.Sample.legacyAverage_uniform",
    "Verif.Sample.getColor_deterministic",
    "Verif.Sample.session_getColor",
    "Verif.Sample.legacySums_eq"
   ],
   "note": "For radius below 9362.28 and positions up to 2^36. Pigment mixing (paint > 0): alpha and range only; the colour is not characterised."
  },
  {
   "property": "C23",
   "status": "partial",
   "theorems": [
    "Verif.Sample.sampling_defined_partial",
    "Verif.Sample.sampling_divides_by_zero"
   ],
   "note": "Holds for radius*7 < 65536. False above: radius 9362+293/1024 divides by zero, proved for every reachable surface."
  },
  {
   "property": "C24",
   "status": "partial",
   "theorems": [
    "Verif.Symm.history_never_faults",
    "Verif.Symm.passes_are_copies",
    "Verif.Symm.copies_length",
    "Verif.Symm.bbox_in_bounds_partial",
    "Verif.Symm.snowflake_bbox_out_of_bounds",
    "Verif.Symm.huge_line_count_writes_out_of_bounds"
   ],
   "note": "The transform table is never overrun for at most 2^20 lines, whatever the allocator does, and the number of copies is exact. The property is false in two cases, both proved: with a failed bounding-box allocation a snowflake of at least as many lines as (an even number of) boxes writes one box past the end, and 119304656 lines make the byte count wrap and overrun the table."
  },
  {
   "property": "C25",
   "status": "proved",
   "theorems": [
    "Verif.Symm.passes_are_copies",
    "Verif.Symm.images_of_image",
    "Verif.Symm.copies_isometric",
    "Verif.Symm.dab_repeated_for_setting_in_force"
   ],
   "note": "Over an ordered field with the usual trigonometric laws (instance: the reals)."
  },
  {
   "property": "C26",
   "status": "partial",
   "theorems": [
    "Verif.Symm.setting_in_force",
    "Verif.Symm.dab_repeated_for_setting_in_force",
    "Verif.Symm.begin_atomic_all_or_nothing",
    "Verif.Symm.set_only_switches",
    "Verif.Symm.active_is_immediate",
    "Verif.Symm.failed_allocation_disables"
   ],
   "note": "Holds for the transforms when allocations succeed. False for the on/off switch, which acts at once, and after a failed allocation followed by a return to the old setting, which leaves symmetry off; both proved."
  },
  {
   "property": "C27",
   "status": "proved",
   "theorems": [
    "Verif.Rng.draws_in_range",
    "Verif.Rng.draws_reproducible",
    "Verif.Rng.draws_sized",
    "Verif.Rng.sums_exact"
   ],
   "note": "Values in units of 2^-52; sums_exact shows the double arithmetic is exact."
  },
  {
   "property": "C28",
   "status": "proved",
   "theorems": [
    "Verif.Rng.draws_lagged_fibonacci"
   ],
   "note": "For every seed and any number of draws."
  },
  {
   "property": "C29",
   "status": "proved",
   "theorems": [
    "Verif.Rng.gauss_bounded",
    "Verif.Rng.gauss_bounded_numeric"
   ],
   "note": "For any monotone rounding of the intermediate results."
  },
  {
   "property": "C30",
   "status": "proved",
   "theorems": [
    "Verif.Map.evaluate_at",
    "Verif.Map.evaluate_between",
    "Verif.Map.evaluate_left",
    "Verif.Map.evaluate_right",
    "Verif.Map.evaluate_within",
    "Verif.Map.last_step_ignored",
    "Verif.Map.calculate_sum",
    "Verif.Map.calculate_ignores"
   ],
   "note": "Over an ordered field; for sorted control points. Where the last two points share an abscissa the last one is ignored (last_step_ignored)."
  },
  {
   "property": "C31",
   "status": "proved",
   "theorems": [
    "Verif.Map.is_constant_truthful",
    "Verif.Map.point_count",
    "Verif.Map.setN_succeeds"
   ],
   "note": "After any history of edits."
  },
  {
   "property": "C32",
   "status": "partial",
   "theorems": [
    "Verif.Map.points_sorted_partial",
    "Verif.Map.points_can_become_unsorted"
   ],
   "note": "Holds if points are set in increasing index order, as the loader does. False in general, proved with a concrete history."
  },
  {
   "property": "C33",
   "status": "proved",
   "theorems": [
    "Verif.Color.modArith_spec",
    "Verif.Color.smallestDiff_spec"
   ],
   "note": "Exact arithmetic."
  },
  {
   "property": "C34",
   "status": "proved",
   "theorems": [
    "Verif.Color.rgbToHsv_standard",
    "Verif.Color.hsv_roundtrip",
    "Verif.Color.hsvToRgb_cube",
    "Verif.Color.hsvToRgb_periodic"
   ],
   "note": "Exact arithmetic."
  },
  {
   "property": "C35",
   "status": "proved",
   "theorems": [
    "Verif.Color.rgbToHsl_standard",
    "Verif.Color.hsl_roundtrip"
   ],
   "note": "Exact arithmetic."
  },
  {
   "property": "C36",
   "status": "partial",
   "theorems": [
    "Verif.Color.hcy_roundtrip_partial",
    "Verif.Color.hcy_roundtrip_if_weights_add_up",
    "Verif.Color.hcy_changes_greys",
    "Verif.Color.hcy_divides_by_zero"
   ],
   "note": "Holds for chromatic colours with a zero component. False otherwise: the luma weights add up to 1.0036, so every grey between black and white changes, and luma exactly 1 divides by zero. With weights adding up to 1 it would hold for all chromatic colours."
  },
  {
   "property": "C37",
   "status": "proved",
   "theorems": [
    "Verif.Color.mix_additive",
    "Verif.Color.mix_between",
    "Verif.Color.mix_ok"
   ],
   "note": "Additive mixing exactly; pigment mixing: range and alpha, for any power function."
  },
  {
   "property": "C38",
   "status": "partial",
   "theorems": [
    "Verif.Engine.bucket_read_back",
    "Verif.Engine.bucket_index_refused",
    "Verif.Engine.buckets_stay_in_bounds",
    "Verif.Engine.buckets_independent_partial",
    "Verif.Engine.close_buckets_overlap",
    "Verif.Engine.engine_uses_bucket_zero",
    "Verif.Engine.engine_ignores_api_buckets",
    "Verif.Engine.negative_bucket_index_faults"
   ],
   "note": "The engine uses valid buckets only and a written bucket reads back. Independence is false: the array is indexed in units of one float instead of one bucket, so buckets less than nine apart overlap and the engine uses other places than the setter; both proved, and a negative index through the setter is an out-of-bounds access."
  },
  {
   "property": "C39",
   "status": "partial",
   "theorems": [
    "Verif.Engine.reset_forgets_states_partial",
    "Verif.Engine.reset_remembers_position",
    "Verif.Engine.reset_clears_used_partial",
    "Verif.Engine.reset_keeps_engine_bucket",
    "Verif.Engine.reset_keeps_api_bucket",
    "Verif.Engine.used_range_uninitialised"
   ],
   "note": "States: proved without slow tracking and tracking noise, off the path of line 1346; with slow tracking the old position leaks into the new start, proved for every such brush. Buckets: a reset leaves buckets uncleared, proved by witnesses."
  },
  {
   "property": "C40",
   "status": "partial",
   "theorems": [
    "Verif.Engine.first_event_draws_nothing",
    "Verif.Engine.first_event_returns_true_partial",
    "Verif.Engine.first_event_returns_false",
    "Verif.Engine.second_event_draws_nothing"
   ],
   "note": "Drawing nothing is proved for all events and histories. Returning TRUE is proved except on the path of line 1346, where a new brush returns FALSE, also proved. The second event draws nothing either."
  },
  {
   "property": "C41",
   "status": "proved",
   "theorems": [
    "Verif.Engine.less_than_one_dab_pending"
   ],
   "note": "For every session of a new brush with any settings; exact arithmetic."
  },
  {
   "property": "C42",
   "status": "proved",
   "theorems": [
    "Verif.Engine.dabs_of_motion",
    "Verif.Engine.chopping_does_not_matter",
    "Verif.Engine.settled_after_move"
   ],
   "note": "For brushes with constant rates, shape and radius that draw their dabs where the pen is (other settings may have any dynamics), after the first movement, pen down, time divided in proportion; exact arithmetic."
  },
  {
   "property": "C43",
   "status": "proved",
   "theorems": [
    "Verif.Engine.stroke_to_terminates",
    "Verif.Engine.session_terminates",
    "Verif.Engine.dabs_bounded",
    "Verif.Engine.move_ends_at_target",
    "Verif.Engine.stroke_to_ends_at_target"
   ],
   "note": "For every brush whose dab rates and aspect ratio are bounded above for all inputs, and elementary functions satisfying the listed laws (the real functions do). Exact arithmetic; with the roundings of float it holds near the origin and fails far from it, see C78."
  },
  {
   "property": "C44",
   "status": "partial",
   "theorems": [
    "Verif.Engine.absurd_coordinates_neutralised",
    "Verif.Engine.acceptable_event_faults_partial",
    "Verif.Engine.sensible_event_survives",
    "Verif.Engine.sensible_session_survives",
    "Verif.Engine.smudging_session_survives",
    "Verif.Engine.positions_convert",
    "Verif.Engine.offset_by_speed_overflows",
    "Verif.Engine.large_coordinates_abort",
    "Verif.Engine.nan_tilt_aborts",
    "Verif.Engine.absurd_coordinates_poison"
   ],
   "note": "False: coordinates from 1e8 to 1e10 and NaN tilts abort, and a neutralised event poisons brushes that use the view zoom; all proved. Otherwise sessions survive: proved for brushes that never sample the canvas, and for all brushes without offset by speed whose tracking noise and random offset are bounded. With an offset by speed a smudging brush converts a position outside of int (witness)."
  },
  {
   "property": "C45",
   "status": "partial",
   "theorems": [
    "Verif.Engine.stroke_to_follows_rule",
    "Verif.Engine.painting_clock_never_restarts",
    "Verif.Engine.painting_clock_never_restarts_session",
    "Verif.Engine.split_is_repeated",
    "Verif.Engine.new_stroke_restarts"
   ],
   "note": "The rule is proved for every ordinary event. The clocks do not restart after a split (proved), only mypaint_brush_new_stroke restarts them."
  },
  {
   "property": "C46",
   "status": "partial",
   "theorems": [
    "Verif.Load.refused_untouched",
    "Verif.Load.unnamed_settings_untouched",
    "Verif.Load.unnamed_inputs_untouched",
    "Verif.Load.unknown_setting_ignored",
    "Verif.Load.load_sets",
    "Verif.Load.unknown_input_stops_loading"
   ],
   "note": "Proved for all documents and brushes except the clause on unknown inputs, which is false: an unknown input ends the loading of its setting, so the result depends on the order of the inputs (concrete documents). The JSON parser is not modelled."
  },
  {
   "property": "C47",
   "status": "partial",
   "theorems": [
    "Verif.Load.load_never_aborts_partial",
    "Verif.Load.untrusted_document_aborts",
    "Verif.Load.loaded_curves_are_good"
   ],
   "note": "False: six small documents that abort or dereference NULL. Holds when all known settings of the document are well-formed."
  },
  {
   "property": "C48",
   "status": "proved",
   "theorems": [
    "Verif.Settings.setting_from_its_name",
    "Verif.Settings.setting_name_of_id",
    "Verif.Settings.unknown_setting",
    "Verif.Settings.input_from_its_name",
    "Verif.Settings.input_name_of_id",
    "Verif.Settings.unknown_input",
    "Verif.Settings.defaults_in_range",
    "Verif.Settings.input_ranges_nested",
    "Verif.Settings.state_names"
   ],
   "note": "The tables are transcribed from brushsettings.json in full."
  },
  {
   "property": "C49",
   "status": "proved",
   "theorems": [
    "Verif.Ref.destroyed_with_the_last_reference",
    "Verif.Ref.never_destroyed_twice",
    "Verif.Ref.no_use_after_destruction"
   ],
   "note": "For at most 2^31-1 references at a time."
  },
  {
   "property": "C50",
   "status": "partial",
   "theorems": [
    "Verif.Fixed.fixed_surface_is_a_canvas",
    "Verif.Fixed.tiles_in_bounds_and_disjoint",
    "Verif.Fixed.large_surface_overflows",
    "Verif.Fixed.long_side_aborts",
    "Verif.Fixed.out_of_memory"
   ],
   "note": "Proved for all sizes with sides up to 2^24 and fewer than 2^29 pixels and all request sequences. Beyond that creation is undefined behaviour or aborts, also proved."
  },
  {
   "property": "C51",
   "status": "partial",
   "theorems": [
    "Verif.Fixed.fresh_pixels_are_invalid",
    "Verif.Fixed.fresh_tile_reads"
   ],
   "note": "The property is false: for every size every channel of every fresh pixel is 65535 instead of at most 32768."
  },
  {
   "property": "C52",
   "status": "partial",
   "theorems": [
    "Verif.Surf.failing_backend_partial",
    "Verif.Surf.failed_tile_is_never_repaired"
   ],
   "note": "Full property false of the code."
  },
  {
   "property": "C53",
   "status": "partial",
   "theorems": [
    "Verif.Engine.inputs_documented_partial",
    "Verif.Engine.update_uses_handed",
    "Verif.Engine.newBrush_tame",
    "Verif.Engine.barrel_rotation_of_event",
    "Verif.Engine.barrel_rotation_undocumented",
    "Verif.Engine.brush_radius_is_base",
    "Verif.Engine.viewzoom_undocumented",
    "Verif.Engine.dabs_legal_partial",
    "Verif.Engine.aspect_ratio_unchecked",
    "Verif.Engine.hardness_unchecked"
   ],
   "note": "Fifteen of the eighteen inputs are in their documented range in every step of every session. The rest of the property is false of the code: barrel rotation is documented as -180..180 and is handed over as 0..360 (barrel_rotation_undocumented), view zoom and base radius are not limited. Opacity, radius, softness and angle of every dab are in range; the aspect ratio is passed on unchecked and the hardness may be negative."
  },
  {
   "property": "C54",
   "status": "partial",
   "theorems": [
    "Verif.Full.outRects_in_bounds",
    "Verif.Full.changed_pixels_reported_partial",
    "Verif.Full.empty_list_overrun",
    "Verif.Full.empty_list_session",
    "Verif.Full.end_before_begin_reads_garbage"
   ],
   "note": "Holds for a capacity of at least one once a block was begun. False for capacity 0 (writes index -1) and before the first begin_atomic (uninitialised count); both proved."
  },
  {
   "property": "C55",
   "status": "proved",
   "theorems": [
    "Verif.Load.from_defaults_resets",
    "Verif.Load.default_curve_names"
   ],
   "note": "For every brush state."
  },
  {
   "property": "C56",
   "status": "partial",
   "theorems": [
    "Verif.Engine.feedback_brush_hangs",
    "Verif.Engine.hover_hangs",
    "Verif.Engine.stroke_to_terminates"
   ],
   "note": "False: proved for every brush whose dab rate feeds on itself through the custom input, and for a concrete session of four events. With bounded dynamics every event ends (C43)."
  },
  {
   "property": "C57",
   "status": "partial",
   "theorems": [
    "Verif.Full.reports_only_the_block_partial",
    "Verif.Full.earlier_block_reported_again",
    "Verif.Full.mirror_image_reported_again"
   ],
   "note": "Proved for every session of complete blocks whose last dab is visible (or which draw nothing), with symmetry changed between blocks only and memory for the boxes. Otherwise false: after an invisible last dab, or a toggle of the symmetry inside a block, the next block reports the old area again; proved by witnesses."
  },
  {
   "property": "C58",
   "status": "proved",
   "theorems": [
    "Verif.Engine.paints_own_colour",
    "Verif.Engine.passes_settings_on",
    "Verif.Engine.settings_kept"
   ],
   "note": "For every session; exact arithmetic."
  },
  {
   "property": "C59",
   "status": "proved",
   "theorems": [
    "Verif.Engine.dabs_shaped"
   ],
   "note": "For every session; the conditions of each part are on the brush. Exact arithmetic."
  },
  {
   "property": "C60",
   "status": "proved",
   "theorems": [
    "Verif.Engine.overlapping_dabs_add_up",
    "Verif.Engine.realEnv_roots"
   ],
   "note": "For brushes without random radius and power functions with exact roots, which the real function is."
  },
  {
   "property": "C61",
   "status": "partial",
   "theorems": [
    "Verif.Engine.smudge_stays_in_cube_partial",
    "Verif.Engine.newBrush_memory",
    "Verif.Engine.change_of_kind_leaves_cube",
    "Verif.Engine.reset_of_buckets_leaves_cube"
   ],
   "note": "Proved for every session of brushes of the new kind with any buckets and of the old kind (pigment off) without buckets, starting from a smudge memory in range, which a new brush has. False if the kind is changed in the middle of a stroke, and for the old kind with buckets, of which a reset clears the wrong places (C39); both by witnesses."
  },
  {
   "property": "C62",
   "status": "proved",
   "theorems": [
    "Verif.Engine.speed_calibrated",
    "Verif.Engine.speed_slope",
    "Verif.Engine.speed_monotone"
   ],
   "note": "For the real exponential and logarithm."
  },
  {
   "property": "C63",
   "status": "proved",
   "theorems": [
    "Verif.Engine.dabs_where_the_pen_was",
    "Verif.Engine.scattered_dabs_near_the_pen",
    "Verif.Engine.realEnv_decays"
   ],
   "note": "For every session and every convex region, for brushes without tracking noise, random offset, offset by speed and snapping; with directional offsets up to the 3240 pixels they are clamped to. scattered_dabs_near_the_pen: with bounded tracking noise and random offset and with snapping, near instead of inside. Exact arithmetic."
  },
  {
   "property": "C64",
   "status": "proved",
   "theorems": [
    "Verif.Painting.paint_stays_near_the_pen",
    "Verif.Painting.scattered_paint_stays_near_the_pen"
   ],
   "note": "The second theorem is for brushes that scatter by a bounded amount, snap, or have a random radius. Engine and tiled surface together, every number of blocks, every schedule. Exact arithmetic in engine and mask."
  },
  {
   "property": "C65",
   "status": "proved",
   "theorems": [
    "Verif.Painting.painting_keeps_picture_valid"
   ],
   "note": "Engine and tiled surface together. The modes left out can give invalid pixels (C16, C20)."
  },
  {
   "property": "C66",
   "status": "proved",
   "theorems": [
    "Verif.Painting.locked_brush_keeps_alpha",
    "Verif.Painting.eraser_only_removes"
   ],
   "note": "Engine and tiled surface together, any symmetry. The eraser theorem leaves out colorize and posterize, which never change alpha by C18."
  },
  {
   "property": "C67",
   "status": "partial",
   "theorems": [
    "Verif.Painting.strokes_reported_partial",
    "Verif.Painting.Demo.fading_stroke_not_reported"
   ],
   "note": "Proved for brushes that are never transparent. Fails for a brush whose opacity follows the pressure: the stroke is reported nowhere if it ends with an invisible dab, proved by a witness."
  },
  {
   "property": "C68",
   "status": "partial",
   "theorems": [
    "Verif.Painting.thick_brush_draws",
    "Verif.Painting.thin_brush_paints_nothing",
    "Verif.Painting.realEnv_shrinks"
   ],
   "note": "Proved for brushes whose radius plus hard radius is more than the anti-aliasing. For brushes whose radius plus hard radius never exceeds the anti-aliasing, without random radius or snapping, it fails: no session with them changes any pixel, proved."
  },
  {
   "property": "C69",
   "status": "partial",
   "theorems": [
    "Verif.Gegl.extent_hides_nothing_partial",
    "Verif.Gegl.extent_least",
    "Verif.Gegl.racing_requests_lose_a_tile",
    "Verif.Gegl.lone_request_covered"
   ],
   "note": "Proved for one thread at a time, for surfaces that make their own buffers. Fails with two threads: the rectangle is read and written without a lock, proved by a schedule."
  },
  {
   "property": "C70",
   "status": "partial",
   "theorems": [
    "Verif.Gegl.handed_buffer_kept_partial",
    "Verif.Gegl.handed_buffer_cropped"
   ],
   "note": "Fails: the first write through a new surface crops the buffer to one tile, proved for all buffers. Holds if the surface has already grown over the extent of the buffer."
  },
  {
   "property": "C71",
   "status": "partial",
   "theorems": [
    "Verif.Gegl.own_buffer_released",
    "Verif.Gegl.handed_buffer_leaks",
    "Verif.Gegl.refused_object_dangles"
   ],
   "note": "Own buffers are released. Fails for buffers handed over, whose count never drops below that of the caller, and for refused objects, after which the surface points to freed memory."
  },
  {
   "property": "C72",
   "status": "partial",
   "theorems": [
    "Verif.Engine.state_read_back",
    "Verif.Engine.states_determined",
    "Verif.Engine.restore_ok",
    "Verif.Engine.replay_partial",
    "Verif.Engine.Demo.replay_on_new_brush_lost",
    "Verif.Engine.Demo.replay_random_fails"
   ],
   "note": "Reading back is proved in full. Replaying is proved for brushes without chance and without grid map, with the same buckets and the same pending reset. It fails otherwise: a brush just created throws the states away, and the random generator is not a state, both proved by witnesses."
  },
  {
   "property": "C73",
   "status": "partial",
   "theorems": [
    "Verif.Engine.brushes_independent_partial",
    "Verif.Engine.Demo.brushes_disturb"
   ],
   "note": "Proved for brushes whose pigment mixing is constant or never negative; nothing is assumed about the other brushes. Fails for a brush with negative pigment mixing, proved by a witness."
  },
  {
   "property": "C74",
   "status": "proved",
   "theorems": [
    "Verif.Engine.stroke_never_falls",
    "Verif.Engine.stroke_counts_distance",
    "Verif.Engine.stroke_begins_at_zero"
   ],
   "note": "For brushes with infinite hold time and no tracking noise. Exact arithmetic."
  },
  {
   "property": "C75",
   "status": "partial",
   "theorems": [
    "Verif.Engine.smudge_limit_kept_partial",
    "Verif.Engine.smudge_negative_limit_kept_partial",
    "Verif.Engine.too_transparent_untouched_partial",
    "Verif.Engine.strokes_watched",
    "Verif.Engine.limit_lost_between_samples"
   ],
   "note": "Proved for brushes that sample for every dab (smudge length log 0, smudge length below 1), starting from a smudge memory in range. Fails for brushes that sample less often: after a refused sample the next dab is drawn, proved by a witness."
  },
  {
   "property": "C76",
   "status": "partial",
   "theorems": [
    "Verif.QueueMemory.session_memory",
    "Verif.QueueMemory.nothing_left",
    "Verif.QueueMemory.destroy_leaves_waiting",
    "Verif.QueueMemory.destroy_after_block",
    "Verif.QueueMemory.destroy_can_leak",
    "Verif.QueueMemory.undelivered_tile_leaks"
   ],
   "note": "No use of released memory and no memory left after a block: proved for every session and allocator. Destroying a surface in the middle of a block leaks the waiting operations, and a tile the backend does not deliver leaks one operation; both proved. Allocation is assumed to succeed."
  },
  {
   "property": "C77",
   "status": "proved",
   "theorems": [
    "Verif.Threads.threads_never_collide",
    "Verif.Threads.parallel_end_atomic",
    "Verif.Threads.dirty_tiles_shared_out",
    "Verif.Threads.accesses_honest"
   ],
   "note": "Statement by statement, sequentially consistent, which the absence of races justifies. The backend delivers every tile, and its own code and malloc are taken to be thread safe."
  },
  {
   "property": "C78",
   "status": "partial",
   "theorems": [
    "Verif.FloatStroke.event_ends_partial",
    "Verif.FloatStroke.session_ends_partial",
    "Verif.FloatStroke.far_event_hangs"
   ],
   "note": "False far from the origin: at x = 2^26 every round brush with two dabs per radius and a radius up to 8 pixels hangs (also 2^25 and 4 pixels and so on). Otherwise proved for dabs per pixel times coordinates up to 2^19 (single events) and 2^18 (whole sessions of events of at most 5 seconds, where the pending fraction of a dab stays below one). Expressions evaluated in their own precision, no fused multiply-add; hypotf and sqrt with a relative error below one part in a million."
  },
  {
   "property": "C79",
   "status": "partial",
   "theorems": [
    "Verif.FloatMask.mask_entry_defined_partial",
    "Verif.FloatMask.opacity_converts",
    "Verif.FloatMask.opacity_accurate",
    "Verif.FloatMask.tiny_hardness_undefined"
   ],
   "note": "False for a hardness from 2^-149 to 2^-128: the conversion of the centre is undefined (proved). Otherwise proved, with sine and cosine accurate to a millionth. Squared distances are not modelled beyond 2^128 (aspect ratios beyond 10^15 or so); no fused multiply-add."
  },
  {
   "property": "C80",
   "status": "partial",
   "theorems": [
    "Verif.Painting.stroke_looks_the_same_everywhere_partial",
    "Verif.Painting.symmetric_stroke_looks_the_same_everywhere_partial",
    "Verif.Painting.symmetric_picture_moves_along_partial",
    "Verif.Engine.dabs_everywhere_partial",
    "Verif.Engine.fault_everywhere_partial",
    "Verif.Painting.smudging_is_not_the_same_everywhere",
    "Verif.Painting.slow_tracking_is_not_the_same_everywhere"
   ],
   "note": "Proved for brushes that do not sample the canvas and do not use the grid map, in exact arithmetic, without symmetry or under a symmetry whose centre moves along and that does not change during the session; a new brush must be without slow tracking. False for smudging brushes left of or above the origin, and for a new brush with slow tracking; both proved by witnesses."
  },
  {
   "property": "C81",
   "status": "partial",
   "theorems": [
    "Verif.Painting.ordinary_painting_goes_well",
    "Verif.Painting.smudging_goes_well_partial",
    "Verif.Painting.painting_goes_well_or_aborts_partial",
    "Verif.Painting.Demo.smudging_aborts"
   ],
   "note": "Proved in full for brushes that do not sample the canvas, and for smudging brushes if one tile of the initial map is out of reach. For every tame brush the only possible fault is the assertion of C05; it does fail, proved by a witness. Without symmetry (C87 has it); the brush has bounded tracking noise and random offset, may snap, has no offset by speed, and does not colorize, posterize or mix pigments under locked alpha; exact arithmetic; allocation of tiles and operations is assumed to succeed."
  },
  {
   "property": "C82",
   "status": "proved",
   "theorems": [
    "Verif.Painting.painting_appears_at_once",
    "Verif.Painting.grouping_does_not_matter",
    "Verif.Painting.Demo.grouping_decides_survival"
   ],
   "note": "Sessions that end without fault; C81 gives conditions for that. Whether the assertion of C05 fails does depend on the grouping, proved by a witness. The symmetry setting is unchanged during the session."
  },
  {
   "property": "C83",
   "status": "proved",
   "theorems": [
    "Verif.Load.reads_what_was_set",
    "Verif.Load.reports_used_inputs",
    "Verif.Load.accepts_what_is_valid",
    "Verif.Load.count_is_read_unchecked"
   ],
   "note": "A point that exists but was never set is uninitialised memory; get_mapping_n does not check the setting (the other calls do), proved by a witness."
  },
  {
   "property": "C84",
   "status": "partial",
   "theorems": [
    "Verif.Engine.used_range_is_reported_partial",
    "Verif.Engine.api_buckets_are_not_reported"
   ],
   "note": "Proved for buckets written while smudging. Buckets written by mypaint_brush_set_smudge_bucket_state are not in the range, proved by a witness; before the first reset the range is uninitialised (C38)."
  },
  {
   "property": "C85",
   "status": "proved",
   "theorems": [
    "Verif.Painting.pose_does_not_matter",
    "Verif.Engine.pose_does_not_matter_to_strokes",
    "Verif.Engine.pose_does_not_matter_to_event"
   ],
   "note": "A tilt that is not a number makes an assertion fail."
  },
  {
   "property": "C86",
   "status": "partial",
   "theorems": [
    "Verif.Painting.picture_stays_symmetric_partial",
    "Verif.Painting.pen_beside_the_line_partial",
    "Verif.Painting.mirroring_in_force",
    "Verif.Painting.Demo.small_skewed_dab_not_mirrored",
    "Verif.Painting.Demo.dab_across_not_symmetric"
   ],
   "note": "Proved for dabs beside the line that have a radius of at least 3 or an angle that is a multiple of 90 degrees. Dabs below that with another angle are not mirrored exactly, and dabs across the line leave roundings that differ; both are shown by witnesses. Numbers are exact; the combined symmetry and rotations are not covered."
  },
  {
   "property": "C87",
   "status": "partial",
   "theorems": [
    "Verif.Painting.symmetric_painting_goes_well",
    "Verif.Painting.symmetric_painting_goes_well_or_aborts_partial",
    "Verif.Painting.Demo.snowflake_without_memory"
   ],
   "note": "Proved for regions and centres up to 200000 pixels out, with exact numbers. Snowflakes of 32 and more lines need the memory for the list of changed areas; without it a copy writes out of bounds, shown by a witness. Brushes that smudge may end on the assertion of C05."
  },
  {
   "property": "C88",
   "status": "proved",
   "theorems": [
    "Verif.Painting.colour_does_not_matter",
    "Verif.Painting.Demo.colorizing_eraser_shows_its_colour"
   ],
   "note": "For every power function that gives the same for all numbers at exponent 0. An eraser that also colorizes shows its colour, by a witness."
  },
  {
   "property": "C89",
   "status": "proved",
   "theorems": [
    "Verif.FloatMap.curve_accurate",
    "Verif.FloatMap.control_point_accurate",
    "Verif.FloatMap.value_accurate",
    "Verif.FloatMap.control_point_missed",
    "Verif.FloatMap.rising_curve_falls",
    "Verif.FloatMap.close_points_lose_everything",
    "Verif.FloatMap.large_points_overflow"
   ],
   "note": "Witnesses show what exact arithmetic (C30) promises and floats do not keep: control points are missed by a unit in the last place, a rising curve can fall, points too close together or too large give 0, infinity or not a number."
  },
  {
   "property": "C90",
   "status": "proved",
   "theorems": [
    "Verif.FloatAngle.mod_arith_float",
    "Verif.FloatAngle.mod_arith_exact",
    "Verif.FloatAngle.smallest_difference_float",
    "Verif.FloatAngle.remainder_out_of_range"
   ],
   "note": "The last theorem shows where it ends: the modulus itself is reached for small negative angles, subnormal negative angles stay negative, and 2^40 degrees give -26624."
  },
  {
   "property": "C91",
   "status": "proved",
   "theorems": [
    "Verif.FloatColor.hsv_roundtrip_float",
    "Verif.FloatColor.hsv_near_grey_float",
    "Verif.FloatColor.hsv_roundtrip_top",
    "Verif.FloatColor.hsv_roundtrip_stored",
    "Verif.FloatColor.hsv_near_grey_stored",
    "Verif.FloatColor.hsv_range_float",
    "Verif.FloatColor.hue_reaches_one",
    "Verif.FloatColor.one_unit_is_lost"
   ],
   "note": "One unit is lost in practice: (5, 1, 1) comes back as (5, 0, 0). The hue can be 1, which exact arithmetic excludes."
  },
  {
   "property": "C92",
   "status": "proved",
   "theorems": [
    "Verif.Painting.hovering_paints_nothing",
    "Verif.Painting.lifting_the_pen",
    "Verif.Painting.newBrush_pressure",
    "Verif.Painting.default_brush_needs_pressure",
    "Verif.Painting.Demo.constant_brush_paints_hovering"
   ],
   "note": "Brushes whose opacity does not depend on the pressure do paint while the pen hovers (constant_brush_paints_hovering)."
  },
  {
   "property": "C93",
   "status": "proved",
   "theorems": [
    "Verif.Engine.resting_draws_nothing",
    "Verif.Engine.pausing_draws_nothing",
    "Verif.Painting.resting_paints_nothing",
    "Verif.Painting.Demo.airbrush_paints_at_rest"
   ],
   "note": "A brush with dabs per second goes on painting (airbrush_paints_at_rest)."
  },
  {
   "property": "C94",
   "status": "proved",
   "theorems": [
    "Verif.Painting.hard_brush_is_a_stencil",
    "Verif.Painting.hard_dab_pixel",
    "Verif.Painting.Demo.antialiasing_leaves_mixtures"
   ],
   "note": "Over an ordered field; symmetry in force during the whole session (InForce, Unswerving as in C82)."
  },
  {
   "property": "C95",
   "status": "partial",
   "theorems": [
    "Verif.Engine.speed_inputs_follow_partial",
    "Verif.Engine.event_readings",
    "Verif.Engine.Demo.landing_reads_no_speed"
   ],
   "note": "Holds unless an event ends exactly on a dab: then the last step of the event has no time left, which line 715 replaces by a millisecond at rest; event_readings says by how much the reading drops. Without slowness the speed is read as 0 (witness)."
  },
  {
   "property": "C96",
   "status": "proved",
   "theorems": [
    "Verif.FastPow.fastpow_never_fails",
    "Verif.FastPow.fastpow_accurate",
    "Verif.FastPow.fastpow_zero",
    "Verif.FastPow.mixBand_accurate",
    "Verif.FastPow.mixBand_zero",
    "Verif.FastPow.fastpow_not_exact",
    "Verif.FastPow.fastpow2_overflow"
   ],
   "note": "The scalar functions, with rounding to nearest after every operation; outside the stated range of exponents the conversion can overflow (witness)."
  },
  {
   "property": "C97",
   "status": "partial",
   "theorems": [
    "Verif.FloatPaint.pigment_accurate",
    "Verif.FloatPaint.locked_pigment_accurate",
    "Verif.FloatPaint.smudged_pigment_accurate",
    "Verif.FloatPaint.erasing_tints",
    "Verif.FloatPaint.pigment_over_itself",
    "Verif.FloatPaint.white_turns_red",
    "Verif.FloatPaint.pigment_over_itself_unstable"
   ],
   "note": "Accuracy of a dab and the bound for one dab over itself are proved; that repeated dabs keep the colour is refuted: ten faint dabs of white turn white reddish. Accuracy is proved for all three pigment modes."
  },
  {
   "property": "C98",
   "status": "proved",
   "theorems": [
    "Verif.Painting.smudging_stays_between",
    "Verif.Painting.smudging_never_brightens",
    "Verif.Painting.smudging_keeps_pure_colour",
    "Verif.Painting.Demo.smudging_darkens"
   ],
   "note": "Smudging of the old kind without buckets, numbers exact. A picture of one colour that is not pure gets darker (witness): sampling rounds every product down."
  },
  {
   "property": "C99",
   "status": "partial",
   "theorems": [
    "Verif.Painting.dab_has_no_angle_partial",
    "Verif.Painting.round_dabs_have_no_angle_partial",
    "Verif.Painting.half_turn_does_not_matter",
    "Verif.Painting.Demo.small_dab_has_an_angle",
    "Verif.Painting.Demo.small_brush_has_an_angle"
   ],
   "note": "Proved for dabs of radius at least 3 (without random radius and snapping), and for half turns of the setting for every brush. False for round dabs of a smaller radius (witnesses): their anti-aliased mask depends on the angle. Numbers exact."
  },
  {
   "property": "C100",
   "status": "partial",
   "theorems": [
    "Verif.FloatSample.legacy_sampling_accurate",
    "Verif.FloatSample.average_between",
    "Verif.FloatSample.uniform_area",
    "Verif.FloatSample.uniform_area_fails_with_pigments"
   ],
   "note": "Proved for legacy sampling (any pixels, against exact arithmetic) and for the running average without pigments. Refuted for sampling with pigments: twelve white pixels give a blue below 0.9991, since each sampled pixel passes through the approximate power function. Mixtures of both samplings are not covered."
  },
  {
   "property": "C101",
   "status": "proved",
   "theorems": [
    "Verif.Painting.pixel_brush_paints_pixels",
    "Verif.Painting.pixel_dab_pixel",
    "Verif.Painting.Demo.wide_without_snapping"
   ],
   "note": "Numbers exact; no symmetry active."
  },
  {
   "property": "C102",
   "status": "partial",
   "theorems": [
    "Verif.Engine.brush_trails_pen",
    "Verif.Engine.held_pen_is_approached",
    "Verif.Engine.held_pen_is_reached",
    "Verif.Engine.trail_depends_on_events"
   ],
   "note": "Proved for the events as reported and for a pen held at a place. Refuted for a moving pen: the same straight movement reported twice as often ends elsewhere (trail_depends_on_events)."
  },
  {
   "property": "C103",
   "status": "partial",
   "theorems": [
    "Verif.Engine.direction_reads_the_line",
    "Verif.Engine.dabs_lie_along_the_line",
    "Verif.Engine.movement_gives_direction",
    "Verif.Engine.direction_angle_reads_the_stroke",
    "Verif.Engine.movement_gives_direction_angle",
    "Verif.Engine.Demo.resting_pen_loses_direction"
   ],
   "note": "Proved while the direction filter is on, for any settings otherwise; the theorems for full turns exclude slow tracking. Refuted without the filter: a step without movement sets the direction to zero, so the dab after a rest lies across the stroke (resting_pen_loses_direction)."
  },
  {
   "property": "C104",
   "status": "partial",
   "theorems": [
    "Verif.Engine.dabs_read_the_pen",
    "Verif.Engine.dabs_of_a_pause",
    "Verif.Engine.upright_pen_reads_ninety",
    "Verif.Engine.Demo.pause_tilts_the_pen"
   ],
   "note": "Interpolation proved for all pairs of consecutive events (moveTo_onWay and strokeEvent_onWay also with slow tracking). Two parts are refuted: an upright pen reads 90 on the declinations in x and y, which are documented to be 0 (upright_pen_reads_ninety), and the event that the library inserts for a pause lays the pen over, so the dabs of the pause read a tilt that the pen never had (pause_tilts_the_pen)."
  },
  {
   "property": "C105",
   "status": "partial",
   "theorems": [
    "Verif.Engine.stroke_input_measures_the_way",
    "Verif.Engine.dabs_read_the_way",
    "Verif.Engine.stroke_begins",
    "Verif.Engine.Demo.hold_of_nine_point_nine_ends"
   ],
   "note": "Proved for whole sequences of events; a dab reads the input at a place between the dab before it and itself (dabs_read_the_way), not at its own. Refuted: a hold time of exactly 9.9 is not infinite (hold_of_nine_point_nine_ends)."
  },
  {
   "property": "C106",
   "status": "partial",
   "theorems": [
    "Verif.Engine.dabs_read_the_grid",
    "Verif.Engine.grid_repeats",
    "Verif.Engine.Demo.grid_lags_one_dab",
    "Verif.Engine.Demo.grid_border_flips"
   ],
   "note": "Proved with the place between the dab before and the dab itself, and repetition up to the border of the cells. Two parts are refuted: the dab reads the place of the dab before it (grid_lags_one_dab), and the borders of the cells read 0 at zero and to the right of it but 256 to the left (grid_border_flips)."
  },
  {
   "property": "C107",
   "status": "proved",
   "theorems": [
    "Verif.Painting.empty_stays_empty"
   ],
   "note": ""
  },
  {
   "property": "C108",
   "status": "proved",
   "theorems": [
    "Verif.Painting.painting_is_local",
    "Verif.Painting.apart_in_any_order"
   ],
   "note": "For brushes that pick colours up the sampling must do the same on both canvases (the threads that visit the tiles, and the coin of the random subset): as many samples so far, or a schedule that does not change. The pixel values have to be valid in that case."
  },
  {
   "property": "C109",
   "status": "proved",
   "theorems": [
    "Verif.Painting.pace_does_not_matter",
    "Verif.Engine.pace_does_not_matter_to_strokes"
   ],
   "note": "The length of the stroke is computed as speed times time, which cancels in exact arithmetic."
  },
  {
   "property": "C110",
   "status": "proved",
   "theorems": [
    "Verif.Engine.resized_stroke"
   ],
   "note": "In exact arithmetic, for the dabs requested from the surface; their pixels are those of C11 and C15. Outside the limits (radius from 0.2 to 1000, offsets up to 3240 pixels, anti-aliasing of narrow edges) the dabs differ; the example with a hard edge shows it."
  },
  {
   "property": "C111",
   "status": "partial",
   "theorems": [
    "Verif.Engine.turned_view_stroke",
    "Verif.Engine.direction_reads_the_screen",
    "Verif.Engine.Demo.first_dab_does_not_turn"
   ],
   "note": "Proved in exact arithmetic for brushes without curves for the inputs of direction, attack angle, tilt ascension and grid, with tilt given as on the screen. The direction inputs read the same as long as the brush has a direction (direction_reads_the_screen). Refuted for brushes that follow the direction at the start of a stroke: without a direction the inputs read the rotation of the view, so the first dab is not turned (first_dab_does_not_turn)."
  },
  {
   "property": "C112",
   "status": "partial",
   "theorems": [
    "Verif.Insane.bad_places_do_no_harm",
    "Verif.Insane.reset_heals_the_pressure",
    "Verif.Insane.one_bad_pressure_spoils_the_stroke",
    "Verif.Insane.infinite_pressure_spoils_the_stroke",
    "Verif.Insane.one_bad_time_ends_the_brush"
   ],
   "note": "Proved for coordinates (bad_places_do_no_harm). Refuted for the pressure, which stays bad until a reset (one_bad_pressure_spoils_the_stroke, infinite_pressure_spoils_the_stroke), and for the time, which with slow tracking ends the brush for ever, resets included (one_bad_time_ends_the_brush). Numbers are exact and do not overflow; the brush has no tracking noise."
  },
  {
   "property": "C113",
   "status": "partial",
   "theorems": [
    "Verif.Engine.mirrored_stroke",
    "Verif.Engine.mirrored_new_stroke",
    "Verif.Painting.mirrored_painting_partial"
   ],
   "note": "The dabs are proved for all brushes that can be mirrored; the picture for brushes with a radius of at least 3 (small elongated dabs are not mirrored, see small_skewed_dab_not_mirrored in C86). Brushes that use direction inputs, angular offsets, scatter, snapping or smudging are not covered."
  },
  {
   "property": "C114",
   "status": "partial",
   "theorems": [
    "Verif.Painting.symmetry_paints_as_by_hand_partial"
   ],
   "note": "Only for mirroring at an upright line and for brushes as in C113 (radius at least 3, no direction inputs, scatter, snapping or smudging) whose strokes stay on one side of the line; pixels through which the line goes are left out."
  },
  {
   "property": "C115",
   "status": "partial",
   "theorems": [
    "Verif.Engine.tilt_reads_the_screen",
    "Verif.Engine.offset_reads_the_report",
    "Verif.Engine.no_report_of_tilt_is_right",
    "Verif.Engine.Demo.tilt_in_a_turned_view"
   ],
   "note": "The inputs are right if the tilt is reported relative to the canvas (tilt_reads_the_screen), the offset if it is reported relative to the screen (offset_reads_the_report). The whole is refuted: no way of reporting makes both right (no_report_of_tilt_is_right; a session: tilt_in_a_turned_view)."
  },
  {
   "property": "C116",
   "status": "proved",
   "theorems": [
    "Verif.Engine.dabs_beside_the_stroke"
   ],
   "note": "For brushes with a direction filter that have already moved in the direction of the stroke (C103 says when that is so), without slow tracking and smudging and with the angle adjustment at zero; in exact arithmetic."
  },
  {
   "property": "C117",
   "status": "proved",
   "theorems": [
    "Verif.Engine.colour_changes",
    "Verif.Engine.opposite_and_white",
    "Verif.Color.hue_turns",
    "Verif.Color.value_scales",
    "Verif.Color.saturation_spreads",
    "Verif.Color.lightness_moves"
   ],
   "note": "In exact arithmetic, and for powers of numbers from 0 to 1 that are from 0 to 1. The saturation settings are weighted as in the code: by the value, or by the distance of the lightness from black and white."
  },
  {
   "property": "C118",
   "status": "partial",
   "theorems": [
    "Verif.Engine.custom_follows_partial",
    "Verif.Engine.custom_lags_partial",
    "Verif.Engine.custom_between",
    "Verif.Engine.reads_seen",
    "Verif.Engine.stepped_at_once",
    "Verif.Engine.Demo.customBrush_glides",
    "Verif.Engine.Demo.events_move_custom",
    "Verif.Engine.Demo.custom_comes_late"
   ],
   "note": "Proved: what each dab reads, in the steps that the code takes, which are one for each dab and one for each motion event (custom_follows_partial; for settings that depend on inputs within an event: custom_lags_partial), and the range in all sessions (custom_between). Refuted: that the input follows with the dabs only (events_move_custom) and that changes apply at once without slowness (custom_comes_late). Missing in the partial theorems: brushes with tracking noise, brushes that sample the canvas, events after more than 0.1 s."
  },
  {
   "property": "C119",
   "status": "proved",
   "theorems": [
    "Verif.Engine.dabs_ahead",
    "Verif.Engine.ahead_of_pen",
    "Verif.Engine.offset_fades",
    "Verif.Engine.straight_stroke_ahead",
    "Verif.Engine.Demo.aheadBrush_goes_ahead"
   ],
   "note": "The exact place of each dab of an event, the sign of the offset on a straight stroke from rest, and how it fades."
  },
  {
   "property": "C120",
   "status": "proved",
   "theorems": [
    "Verif.Engine.looks_keep_places",
    "Verif.Engine.looks_keep_number",
    "Verif.Engine.Demo.random_radius_moves_scatter"
   ],
   "note": "A simulation between the two brushes over whole sessions. The last theorem shows why nothing else may be random when the random radius differs: both take numbers from one generator."
  },
  {
   "property": "C121",
   "status": "proved",
   "theorems": [
    "Verif.Engine.random_dabs_evened",
    "Verif.Engine.random_dabs_no_more_paint"
   ],
   "note": "Invariant over whole sessions; settings may depend on inputs in the first theorem."
  },
  {
   "property": "C122",
   "status": "partial",
   "theorems": [
    "Verif.Engine.smudge_follows_partial",
    "Verif.Engine.smudge_steadily_partial",
    "Verif.Engine.smudge_never_changes_partial",
    "Verif.Engine.Demo.half_of_the_way",
    "Verif.Engine.Demo.not_at_once",
    "Verif.Engine.Demo.never_taken_up"
   ],
   "note": "Proved for brushes without smudge buckets: the exact paint of every dab from the colours found on the canvas (smudge_follows_partial), the geometric approach on a canvas of one colour (smudge_steadily_partial), and that with length 1 or more nothing is taken up and the canvas is not sampled, also for spectral brushes (smudge_never_changes_partial). Violated by the code: with length 0 a hundredth of the old colour stays at each dab, because the length is taken as at least 0.01 (Demo.not_at_once). Missing: spectral mixing, buckets, smudge_length_log other than 0."
  },
  {
   "property": "C123",
   "status": "proved",
   "theorems": [
    "Verif.Engine.number_of_dabs",
    "Verif.Engine.airbrush_by_the_clock"
   ],
   "note": "Exact arithmetic; no tracking noise; slow tracking only in airbrush_by_the_clock (otherwise the way is that of the brush, not of the pen). Restarts, that is pauses of more than five seconds, lose the pending part and are not covered."
  },
  {
   "property": "C124",
   "status": "proved",
   "theorems": [
    "Verif.Engine.looks_once_in_n",
    "Verif.Engine.fades_some_time",
    "Verif.Engine.FadesAfter.unique",
    "Verif.Engine.looks_less_often",
    "Verif.Engine.looks_at_each_dab",
    "Verif.Engine.looks_at_second_dabs",
    "Verif.Engine.looks_with_half_length",
    "Verif.Engine.Demo.two_looks"
   ],
   "note": "Exact arithmetic. The limit has the margin of 1e-16 that the code adds. The remark in the source that the canvas is looked at for every second dab at most holds with a multiplier of 1 or more only (looks_at_each_dab)."
  },
  {
   "property": "C125",
   "status": "proved",
   "theorems": [
    "Verif.Engine.dabs_trail_behind",
    "Verif.Engine.dabs_get_behind",
    "Verif.Engine.reports_matter_per_dab"
   ],
   "note": "Upper bound and nearness of every dab to the way for any way (dabs_trail_behind), lower bound on a straight way for brushes without dabs by the clock and T at least 1 (dabs_get_behind). The bounds do not depend on the events, but the exact places do: reports_matter_per_dab shows that one event and two for the same movement leave the dabs at different places."
  },
  {
   "property": "C126",
   "status": "proved",
   "theorems": [
    "Verif.Engine.harder_with_rising_curves",
    "Verif.Engine.harder_paints_no_less",
    "Verif.Engine.rising_curve_rises",
    "Verif.Painting.harder_leaves_no_less_paint",
    "Verif.Engine.Demo.harder_may_draw_fewer"
   ],
   "note": "The condition on the opacity is shown to be needed: with a radius that follows the pressure, more pressure gives fewer dabs. After a pause of more than a tenth of a second the engine treats the first pressure specially, so such pauses are left out."
  },
  {
   "property": "C127",
   "status": "proved",
   "theorems": [
    "Verif.Engine.turning_up_paints_no_less",
    "Verif.Engine.more_opaque_paints_no_less",
    "Verif.Painting.more_opaque_leaves_no_less_paint",
    "Verif.Painting.more_opaque_erases_no_less",
    "Verif.Painting.harder_erases_no_less",
    "Verif.Painting.Demo.half_eraser_goes_both_ways"
   ],
   "note": "half_eraser_goes_both_ways shows that the eraser must be a full one."
  },
  {
   "property": "C128",
   "status": "proved",
   "theorems": [
    "Verif.Engine.stronger_dabs",
    "Verif.Painting.opacity_stronger",
    "Verif.Painting.stronger_leaves_no_less_paint",
    "Verif.Painting.stronger_erases_no_less",
    "Verif.Mask.opaOf_harder",
    "Verif.Engine.stronger_dabs_antialiased",
    "Verif.Engine.antiAlias_mono",
    "Verif.Painting.Demo.small_harder_paints_less"
   ],
   "note": "small_harder_paints_less shows that the size matters: where anti-aliasing makes a dab grow past a radius of three pixels a harder brush paints less. With anti-aliasing and another hardness the picture theorems need dabs with a radius of at least three pixels, as the statement says."
  },
  {
   "property": "C129",
   "status": "proved",
   "theorems": [
    "Verif.Painting.bigger_dabs_cover_no_less",
    "Verif.Painting.bigger_dabs_erase_no_less",
    "Verif.Painting.Demo.bigger_dab_may_cover_less"
   ],
   "note": "bigger_dab_may_cover_less is the case below three pixels."
  },
  {
   "property": "C130",
   "status": "proved",
   "theorems": [
    "Verif.Painting.stronger_comes_nearer",
    "Verif.Painting.bigger_dabs_come_nearer",
    "Verif.Painting.between_over"
   ],
   "note": ""
  },
  {
   "property": "C131",
   "status": "proved",
   "theorems": [
    "Verif.Painting.plain_paint_moves_towards",
    "Verif.Painting.own_colour_changes_nothing"
   ],
   "note": ""
  },
  {
   "property": "C132",
   "status": "proved",
   "theorems": [
    "Verif.Painting.channels_apart",
    "Verif.Painting.Demo.colorize_mixes"
   ],
   "note": "Colorize is excluded because it weighs the channels (Demo.colorize_mixes)."
  }
 ]
}