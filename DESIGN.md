# A machine-checked model of libmypaint: design

## What this is

`/verif/lean` is a Lean 4 project that models the C code of libmypaint function by function and
proves the properties listed in `properties.jsonl` about that model.  The code is read as text;
it is neither compiled nor run.  `MANIFEST.json` maps every property to its theorems.

## Layout

* `Verif/Model/*.lean`  definitions only; each one cites the file and lines it models.
* `Verif/Spec/*.lean`   small specifications that do not mention the model's helpers.
* `Verif/Lemmas/*.lean` helper lemmas.
* `Verif/Props/*.lean`  the property theorems, each followed by a concrete non-vacuity `example`.
* `seeded/LOG.jsonl`    the record of mutation tests (model edited as a realistic bug would).

## Modelling conventions

* Undefined behaviour, failed assertions and aborts are a distinct outcome (`Option`/`Except`),
  never silently totalised.
* Where the C arithmetic is integral (blending, queue, tile map, rectangles, run-length mask,
  random generator, mapping bookkeeping) the model is integral and exact, with C widths made
  explicit where overflow matters.
* The random generator works on doubles that are multiples of 2^-52 in [0,2): every operation is
  exact in binary64, so the model uses integers modulo 2^52 and is exact.
* The luma computation of the colorize mode is modelled with exact IEEE binary32 rounding
  (round to nearest even after each operation, no fused multiply-add), because the
  property depends on the last bit.
* The loop over the dabs of a motion event is modelled twice: with exact numbers as part of the engine,
  and with every rounding of binary32 and binary64 (`Model/Float32`, `Model/FloatStroke`, C78).  Likewise the opacity of one pixel of a mask
  (`Model/FloatMask`, C79), there with infinities and not-a-number, and the mixing of pigments in a pixel (`Model/FastPow`,
  `Model/FloatPaint`, C96, C97), with the bits of the numbers.
* The other float formulae (dab falloff, geometry, curves, colour conversion, brush
  dynamics) are modelled over an arbitrary ordered field or over the reals.  Float
  rounding, overflow to infinity and NaN are NOT modelled there; every property that rests on
  this says so in the manifest.
* External code (tile backend, malloc, json-c parsing, libm) is a parameter or an
  explicit input of the model.

## Plan per property

| id | model | method |
|----|-------|--------|
| C01 | heap of nodes with `first`/`last` pointers, free = removal from heap, dangling access = fault | refinement to `List` by induction over the operation list |
| C02 | flat array `List` + C index arithmetic over `Int` | injectivity by integer arithmetic, copy loop by induction |
| C03 | queue = tile map of optional FIFOs + dirty array, growth loop | refinement to `TileIndex -> List Op` |
| C04 | same | invariant: non-empty implies dirty; dedup loop proved to be duplicate-free and content-preserving |
| C05 | same, assert = abort | negation with a concrete history; partial: no abort when no tile is flushed between drains, or while the map is not fully dirty |
| C06-C08 | canvas = function tile -> pixels, `process_tile` folds queued operations | refinement to immediate drawing; commutation of steps on distinct tiles; interleavings by permutation/trace equivalence |
| C09 | dab drawing, symmetric copies, bbox table, `end_atomic` output packing | negation with witness (invisible last dab); partial theorem for blocks whose dabs are all visible under one symmetry setting |
| C10 | integer rectangles | order-theoretic characterisation |
| C11 | tile range and mask window arithmetic | floor arithmetic over an ordered field, ellipse geometry |
| C12 | parameter clamping and early exits | case analysis |
| C13 | run-length encoder (nested loops with `skip`) and the decoder loop of the blend modes | encoder/decoder round trip by induction |
| C14 | same encoder, opacity from convex `rr` | counting lemma: length = pixels + 2*gaps + 2; at most one run of pixels per row |
| C15 | `calculate_opa` over an ordered field | algebra |
| C16-C19, C21 | integer blend functions | integer arithmetic |
| C20 | binary32 luma, int16/int32 conversions, division by zero = fault | error analysis of the rounding; negation on white pixels |
| C22, C23 | sampling sums, sample interval | bounds; negation with witness radius |
| C24, C26 | symmetry state machine with allocation oracle | invariant; case analysis |
| C25 | 3x3 matrices over the reals | trigonometric identities |
| C27-C29 | integer lagged Fibonacci generator | induction over draws |
| C30-C32 | mapping structure | induction over calls; segment search correctness; negation witness |
| C33 | floor arithmetic over an ordered field | algebra |
| C34-C36 | colour conversions over an ordered field | case analysis; negation for HCY |
| C37 | additive mixing | convexity |
| C38, C39 | flat bucket array | negation witnesses; partial theorems for what holds |
| C40-C45 | stroke loop with dynamics as parameters | induction, well-founded measure |
| C46, C47 | loader over an abstract JSON tree | induction over fields; negation witness |
| C48 | tables generated from brushsettings.json | whole-table decision |
| C49 | counters | induction |
| C50, C51 | flat tile buffer | arithmetic |
| C52 | `process_tile` with failing backend | negation witness + what holds |
| C53 | ranges of the inputs | floor arithmetic, trigonometric bounds as hypotheses on libm |
| C54 | packing of the rectangles in `end_atomic` | bounds; negation with capacity 0 and before the first block |
| C55 | loader, `mypaint_brush_from_defaults` | induction over the table of settings |
| C56 | stroke loop with feedback through the custom input | negation: a brush and a session that never end |
| C57 | bounding boxes over a session of blocks | invariant over blocks; negation witnesses |
| C58-C60, C62 | engine, dabs recorded in a list | one induction over sessions (`Lemmas/EngineSession.lean`) instantiated with different invariants |
| C63 | engine, dabs recorded in a list | invariant: the brush is in the convex region; every step is a convex combination |
| C64-C68 | engine on the tiled surface (`Model/Painting.lean`) | the engine's surface is the tiled surface; the recorded dabs of a block are the dab events of a surface run (`block_eq`); induction over blocks with what the session theorems say of each dab |
| C69-C71 | surface over a GEGL buffer: heap of counted objects, extent rectangles, threads as micro steps | invariant over sessions; negations with a schedule, a buffer and an object |
| C72, C73 | states as an array (`Model/States`), several brushes with the shared buffer (`Model/Brushes`) | relational induction: two brushes that differ only in what does not matter take the same steps (`Lemmas/EngineTwin`); negations with concrete brushes |
| C74 | the engine of `Model/Engine` | invariant over sessions: in the middle of a stroke the stroke input is at least what it was; the step that begins a stroke gives zero |
| C75 | the engine on a surface that records samples and dabs in order (`watch`) | invariant over sessions, together with the smudge memory of C61; negation with a concrete brush |
| C76 | the queue with `struct fifo`, items and operations as blocks on a heap, an arbitrary allocator | ownership invariant and simulation of the queue of lists (C03, C06); negations for destroying with dabs waiting and for undelivered tiles |
| C77 | threads as programs of one statement a step over shared cells (slots, blocks, pixels), schedules as arbitrary lists of thread numbers | each thread only accesses the cells of its tiles, which C76's ownership invariant keeps apart; so any interleaving acts as each thread alone |
| C78 | rounding to a binary grid over the rationals, the loop of `stroke_to` with a rounding after every operation; all else a dab does enters as an arbitrary sequence of spacings | error analysis: each iteration takes a third of a dab or more off the number of dabs ahead; sessions by an invariant between events; negation by ties to even |
| C79 | the distance and falloff functions of the mask with a rounding after every operation, the falloff with infinities and not-a-number, the conversion to an integer as a partial function | monotonicity of rounding for signs; error analysis for the range and for the distance of the farthest point from the centre; negation by overflow of the inverse hardness |
| C80 | the engine on the tiled surface (`Model/Painting`) | relational induction over two sessions whose positions differ by the shift (`Lemmas/EngineSlide`), the mask at a moved pixel (`Lemmas/PaintingSlide`), the matrices of a symmetry around a moved centre (`Lemmas/SymmetrySlide`); negations with concrete brushes |
| C81 | the engine on the tiled surface (`Model/Painting`) | total correctness: an invariant that gives each call of the surface its preconditions (`Lemmas/PaintingTotal`), termination from C43, validity from C11; the assertion of C05 fails by a concrete session |
| C82 | the engine on the tiled surface (`Model/Painting`) | refinement: the tiled surface follows a surface on which dabs appear at once (`Spec/PaintNow`, `Lemmas/EngineFollow`, `Lemmas/PaintNow`), from C01 and the virtual canvas of the queue |
| C83 | the calls on settings (`Model/SettingsApi`, `Model/Mapping`) | induction over histories of calls against functions from setting, input and point to the last value set (`Spec/SettingsApi`) |
| C84 | the range of used buckets (`Model/Buckets`) | induction over histories: the range is the smallest and largest bucket written since the reset |
| C85 | the engine and the tiled surface (`Model/Engine`, `Model/Painting`) | two runs, related by equality of everything but tilt and rotation (`Lemmas/EnginePose`) |
| C86 | masks, symmetry passes and the tiled surface (`Model/Mask`, `Model/Symmetry`, `Model/Painting`) | the mask of the mirrored dab is the mirrored mask (`Lemmas/MaskMirror`); a dab and its copy keep the picture symmetric; then C82 and an invariant over the recorded dabs |
| C87 | as C81, with symmetry settings between blocks | copies are as far from the centre as the dab (C25), boxes exist (C24, C57), then as C81 (`Lemmas/PaintingTotal`) |
| C88 | the session of C64 with a colour chosen before each block | two runs in step: the brushes differ in colour only (`Lemmas/EngineHue`), the queues in the colour of dabs that do not use it (`Lemmas/SurfMap`, `Lemmas/SurfMute`) |
| C89 | `calculate` with a rounding after every operation, overflow to infinity | error analysis of one segment, induction over the curves |
| C90 | `mod_arith` and `smallest_angular_difference` with floats and doubles (`Model/FloatAngle`) | spacing of floats around multiples of the modulus, monotonicity of rounding |
| C91 | `rgb_to_hsv_float` and `hsv_to_rgb_float` with floats and doubles (`Model/FloatColor`) | each component is a continuous function of hue, saturation and value with slope at most 1, also across the wrap-around; errors of the single operations |
| C92 | the stroke engine on the tiled surface; sessions of `Model/Painting` | invariant of the engine: no pressure, all dabs so far transparent; transparent dabs queue nothing |
| C93 | the stroke engine on any surface | the number of dabs due is 0 at a distance of 0, so that the dab loop is not entered; induction over the events |
| C94 | the stroke engine on the tiled surface; sessions of `Model/Painting` | C82 reduces a session to dabs drawn at once; a hard dab replaces the pixels of its disc exactly (mask 32768, blending at full opacity); induction over the dabs |
| C95 | the dab loop of the stroke engine | invariant of the dab loop: position and time left are in proportion, so every step has the velocity of the event; filters compose by the law of the exponential |
| C96 | `fastlog2`, `fastpow2` and `fastpow` on the bits of floats, conversions as partial functions (`Model/FastPow`) | the rational approximations against logarithm and exponential by derivatives, whose signs a verified test for polynomials decides (`Lemmas/PolyCheck`, `FastLog`); error analysis of the roundings |
| C97 | the three pigment modes with every rounding (`Model/FloatPaint`) | error analysis through ten bands, powers, the matrix and the clamp, against `Model/Spectral` over the real numbers |
| C98 | the whole painting session (as C82) | joint invariant of the picture and the memory of the brush; sampling by C22, dabs pixel by pixel by C11 (`Lemmas/OpaquePicture`) |
| C99 | the whole painting session (as C82) | the mask of a large round dab by sin² + cos² = 1; a relation between two runs of the engine (`Lemmas/EngineSpin`); fails for small dabs |
| C100 | sampling of the canvas with every rounding (`Model/FloatSample`) | relative error windows for sums and quotients; an invariant of the running average; negation by evaluation for pigments |
| C101 | the whole painting session (as C82) | the anti-aliased mask of a dab in the middle of a pixel; snapping from C59; sessions as in C94 |
| C102 | the brush engine (as C43) | each call ends at the target of slow tracking; the exponential law composes the calls, including the split one of the pressure workaround |
| C103 | the brush engine (as C43) | invariant: the filtered movement is a non-zero multiple of the direction of the line; the angle of the dab then reads it back, with the rotation of the view cancelled |
| C104 | the brush engine (as C43) | invariant of the dab loop: the brush is at a part of the way, and a step by a fraction of the rest stays on the way; angles modulo full turns between events |
| C105 | the brush engine (as C43) | invariant of the dab loop and of the session: the way so far, modulo the wrap of the input |
| C106 | the brush engine (as C43) | invariant: values of the grid settings and the position are those of the last step; congruence modulo 256 |
| C107 | the brush engine on the tiled surface (as C64) | invariant of the session: the canvas is empty and the alphas in the memory of the brush are zero |
| C108 | the brush engine on two canvases side by side (as C64, C82) | simulation: the brush on both canvases gets the same answers as long as they agree where it looks; a dab changes each pixel by itself |
| C109 | the brush engine (as C85) | two sessions side by side: the states that hold speed, clocks, zoom and direction may differ, everything else stays equal; the length of the stroke is homogeneous in the time |
| C110 | the brush engine (as C80), with a log of the dabs | two sessions side by side, one with all lengths multiplied by a factor and the zoom divided by it |
| C111 | the brush engine (as C80), with a log of the dabs | two sessions side by side, one turned on the canvas in a view turned back; laws of sine and cosine; fails at the start of a stroke for brushes that follow the direction |
| C112 | position, pressure and time of the pen with infinities and not-a-number (`Model/Insane`); what the rest of the engine decides is arbitrary | invariants over sessions: finite stays finite; not-a-number stays |
| C113 | the engine, masks and blending as for C80 and C86 | two runs side by side, the second one mirrored (`Lemmas/EngineGlass`); the picture via C82, C86 and the half turns of C99 |
| C114 | the session model (C59) with symmetry and without | each pixel sees only the dabs of its side: dabs on the other side miss it, so that pairs of dabs can be sorted; the mirrored run is that of C113 |
| C115 | inputs and directional offsets of the engine (C53, C59) | arithmetic of angles modulo 360; the refutation for an arbitrary report of the tilt |
| C116 | directional offsets and the sign that alternates with the dabs (C59, C103) | invariant of the session: the brush on the line, the sign in step with the number of dabs |
| C117 | the colour dynamics of a dab with the conversions of C34 and C35 | the conversions equal formulas with the pure colour of a hue, by sectors; induction over sessions of one encoding (`session_light`) |
| C118 | the simulation step and the dab loop of the engine (C53, C59, C104) | induction over the dab loop and the session; closed form of the steps; invariant for the range; refutation of the step with the dabs only and at once |
| C119 | the simulation step and the placing of dabs (C95, C104) | closed form of the smoothed velocity along the dab loop, then the place of each dab; induction over events of a straight stroke |
| C120 | the whole engine (C53) | simulation relation between two brushes that differ in settings for the looks, over the dab loop, events and sessions |
| C121 | opacity and radius of a dab (C59, C60) | invariant over sessions: opacity times square of the radius |
| C122 | smudging in the dab loop of the engine (C53, C61, C104), with a canvas that writes down what it answers | the paint after one dab; induction over the dab loop and the session; closed form on a canvas of one colour; refutation of "at once" |
| C123 | the dab loop of the engine (C53, C42, C104) | dabs drawn, pending part and dabs to do add up to a constant through the dab loop; sums over the session; the whole part |
| C124 | smudging in the dab loop of the engine (C122) | the age of what was found is a power of the smudge length whose exponent counts the dabs modulo N; induction over the dab loop and the session; N over the real numbers |
| C125 | the place of the dabs in the dab loop of the engine (C53, C104, C123), with exponential functions that lie above their tangents | the distance behind the pen, in every direction, satisfies bounds that every step keeps, whole dab or part of one; induction over the dab loop and the session |
| C126 | Pressing harder never paints less | the whole engine (`Model/Engine`), `evaluate` and `calculate` of `Model/Mapping` | simulation of two sessions of one brush that differ in the pressure, the stroke phase and the opacity; pressure stays ordered in every step because each step moves by a fraction between 0 and 1; opacity grows through product, clamp, power and random-radius correction; rising curves by the segment found; the picture by the same simulation on the surface of C82, pixel by pixel |
| C127 | A more opaque brush never paints less, an eraser never leaves more | the whole engine, `Blend.normalAndEraser`, `Dab.prepare`, the surface as in C82 | simulation of two brushes in the same state that differ in the two opacities; the pictures pixel by pixel as in C126; erasing with a greater strength leaves less of every channel |
| C128 | A harder or less soft edge never paints less | the whole engine, `Mask.opaOf`, `Dab.prepare`, the surface as in C82 | simulation as in C127; the falloff of the mask rises with the hardness and falls with the softness at every distance, and anti-aliasing keeps the order of the dabs; the pictures pixel by pixel, with mask and strength both growing |
| C129 | A bigger, harder or more opaque dab never covers less | `Full.drawDab`, `Full.endAtomic`, `Mask.rrAt`, `Mask.opaOf`, `Blend` | the canvas after a block is the dabs put on one after the other (C06, C82); pixel by pixel as in C128; a concrete pair of dabs around a radius of three pixels |
| C130 | A stronger brush brings an opaque picture at least as near to its colour | the whole engine, `Blend.normal`, `Dab.prepare`, the surface as in C82 | the simulation of C128 with the colour of the dabs (C58); the over operator in integers keeps a value between another and the colour |
| C131 | Plain paint moves opaque pixels towards the colour of the brush and not past it | the whole engine, `Blend.normal`, `Dab.prepare`, the surface as in C82 | the picture is the list of the dabs drawn one after another (C94), all of the colour of the brush (C58); the over operator in integers keeps a value between another and the colour (C130) |
| C132 | Red, green and blue are treated alike and do not influence each other | `Dab.prepare`, `Dab.modes`, all blend modes but colorize and pigments, the surface as in C82 | each blend mode commutes with a selection of channels; then the lists of modes, the dabs and the blocks |
| C61 | smudge memory | invariant: everything in [0,1], premultiplied for the old kind; negations when the kind changes and for the old kind with buckets |

## What is modelled, file by file

| file of /repo | modelled | not modelled |
|---|---|---|
| fifo.c | all (`Model/Fifo`), with an explicit heap; the header on the heap in `Model/QueueMemory` | |
| tilemap.c | all (`Model/TileMap`); freeing in `Model/QueueMemory` | the array itself as a heap block |
| operationqueue.c | all (`Model/OperationQueue`; with heap blocks `Model/QueueMemory`; `operation_queue_pop` statement by statement in `Model/Threads`) | queuing from several threads at once, which the code forbids |
| mypaint-rectangle.c | `expand_to_include_point`, `expand_to_include_rect` (`Model/Rectangle`) | `memdup`, `copy` |
| brushmodes.c | every blend mode, both sampling functions (`Model/Blend`, `Spectral`, `GetColor`); pigment painting (`Model/FloatPaint`) and sampling (`Model/FloatSample`) in single precision | |
| fastapprox | `fastlog2`, `fastpow2`, `fastpow`, bit by bit (`Model/FastPow`) | the vector versions and the functions that are not used |
| mypaint-tiled-surface.c | mask geometry and falloff, run-length mask, `process_op`, `process_tile`, `draw_dab_internal`, `draw_dab` with symmetry, `get_color`, `prepare_bounding_boxes`, `begin_atomic`, `end_atomic`, `init` (`Model/Mask`, `FloatMask`, `Dab`, `TiledSurface`, `FullSurface`, `GetColor`) | `tile_request_init`, `destroy`; OpenMP is an arbitrary order of the tiles, and for `process_tile` an arbitrary interleaving of statements (`Model/Threads`) |
| mypaint-symmetry.c, mypaint-matrix.c | all (`Model/Symmetry`) | the printed warning |
| mypaint-fixed-tiled-surface.c | construction, tile requests (`Model/FixedSurface`) | `free_simple_tiledsurf` apart from the reference count |
| mypaint-surface.c | reference counting (`Model/FixedSurface`), forwarding of `draw_dab` and `get_color` (`Model/Painting`) | the other forwarding functions; `get_alpha`, `save_png` (not implemented by the surfaces here) |
| mypaint-mapping.c | all (`Model/Mapping`); `calculate` in single precision with overflow (`Model/FloatMapping`) | freeing |
| rng-double.c | all (`Model/Rng`), exact | |
| helpers.c | `rand_gauss`, angles, HSV, HSL, HCY, spectral conversion, `mix_colors` (`Model/Rng`, `Colors`, `Spectral`) | rounding of the floats, except for angles (`Model/FloatAngle`), HSV (`Model/FloatColor`) and spectra (`Model/FloatPaint`) |
| mypaint-brush-settings.c, brushsettings.json | tables and name lookup (`Model/Settings`, `Ids`) | displayed names and tooltips |
| mypaint-brush.c | the engine: new, reset, buckets, `update_states_and_setting_values`, `count_dabs_to`, `prepare_and_draw_dab`, smudging, `stroke_to` with input checks and stroke splitting (`Model/Engine`, `Buckets`), `get_state` and `set_state` (`Model/States`), loading (`Model/Load`), the loop over the dabs in single precision (`Model/FloatStroke`) | `print_inputs`; rounding of the floats elsewhere; the JSON parser of json-c |
| mypaint.c | nothing (`mypaint_init` is empty) | |
| gegl/mypaint-gegl-surface.c | the extent, replacing and releasing the buffer, racing tile requests (`Model/GeglSurface`) | GEGL itself (its buffers are modelled from the documentation), buffers of another format, `save_png`, the introspection wrapper |
| tests/, build files | nothing | |

Assumptions on the outside: the functions of the C library and the random generator are parameters of the
engine (`Engine.Env`); theorems that need something of them say so (`Laws`, `Roots`, `Powers`, `Trig.Laws`),
and `realEnv_laws`, `realEnv_roots` show that the real functions qualify. Motion events carry coordinates and
tilts that may be infinite or not a number; pressure, time and view are assumed finite (`Model/Insane` drops this
for pressure and time). A division whose
result would be infinite or not a number is the fault `nonFinite` of the model.

## Trusted base

Lean's kernel; the axioms `propext`, `Classical.choice`, `Quot.sound` (no others; every theorem depends on a
subset of these); the reading of the C source into the definitions of `Verif/Model`.  Nothing in Lean ties
the model to the C code other than the citations.

## Defects of the code proved in the model

Each line names the theorem that exhibits it.

* C05 queueing aborts or overflows on large coordinates: `add_can_abort`, `add_can_overflow`.
* C09, C57 an invisible last dab, or toggling symmetry inside a block, makes `end_atomic` report too little, and old areas again later.
* C16 posterize writes colour above alpha: `posterize_breaks_validity`.
* C20 colorize divides by zero on white pixels.
* C23 sampling with a radius above 9362 divides by zero.
* C24 a failed allocation, or 119304656 lines, makes symmetry write past its tables.
* C26 the symmetry switch acts inside a block; a failed allocation can leave symmetry off.
* C32 control points can be set out of order: `points_can_become_unsorted`.
* C36 HCY changes greys and divides by zero: `hcy_changes_greys`, `hcy_divides_by_zero`.
* C38, C39 smudge buckets are indexed in floats: `close_buckets_overlap`, `reset_keeps_engine_bucket`.
* C39 a reset keeps the position under slow tracking: `reset_remembers_position`.
* C40 the first event of a new brush may return FALSE: `first_event_returns_false`.
* C44 coordinates from 1e8 and NaN tilts abort: `large_coordinates_abort`, `nan_tilt_aborts`.
* C45 the clocks do not restart after a split: `painting_clock_never_restarts`.
* C46, C47 an unknown input stops loading; six documents abort: `unknown_input_stops_loading`, `untrusted_document_aborts`.
* C50, C51 large fixed surfaces overflow, fresh ones hold invalid pixels: `large_surface_overflows`, `fresh_pixels_are_invalid`.
* C53 barrel rotation is out of its documented range: `barrel_rotation_undocumented`; aspect ratio and hardness are unchecked.
* C54 `end_atomic` with a capacity of zero writes before the list.
* C56 a brush that never returns from `stroke_to`: `feedback_brush_hangs`.
* C44 a smudging brush with an offset by speed converts a position outside of int: `offset_by_speed_overflows`.
* C61 switching pigment off in the middle of a stroke gives colours above 1: `change_of_kind_leaves_cube`; so does a brush with buckets that is reset
  (`reset_of_buckets_leaves_cube`).
* C78 far from the origin small brushes never return from `stroke_to`: `far_event_hangs`.
* C79 a hardness of at most 2^-128 makes the centre of a dab not a number: `tiny_hardness_undefined`.
* C80 the place where a smudging brush samples the canvas is rounded toward zero, so at negative coordinates it is the wrong pixel: `smudging_is_not_the_same_everywhere`.
* C81 a smudging brush can make an assertion fail, because tiles processed early for a sample are marked a second time: `smudging_aborts` (and C05).
* C82 whether that assertion fails depends on how motion events are grouped into blocks: `grouping_decides_survival`.
* C83 `mypaint_brush_get_mapping_n` reads the array of settings with an unchecked index: `count_is_read_unchecked`.
* C84 buckets written through the API are not in the reported range of used buckets: `api_buckets_are_not_reported`.
* C86 a small dab (radius below 3) with an angle that is not a multiple of 90° can differ from its mirror image, by 4 % of the opacity in the witness: `small_skewed_dab_not_mirrored`. A dab across the mirror line makes roundings differ: `dab_across_not_symmetric`.
* C87 a snowflake with 32 lines writes behind the list of changed areas while painting if the memory for a longer list was refused: `snowflake_without_memory`.
* C89 in single precision a curve misses control points by a unit in the last place (and so leaves the range of its points), and a rising curve can fall: `control_point_missed`, `rising_curve_falls`; points 2^-149 apart give 0, large ones infinity or NaN: `close_points_lose_everything`, `large_points_overflow`.
* C90 in single precision the remainder of a small negative angle is 360, that of a subnormal one is negative, that of 2^40 is -26624: `remainder_out_of_range`.
* C91 a colour of a picture that is converted to HSV and back can lose one unit of 1/32768 in a component, because the result is cut off and not rounded: `one_unit_is_lost`; colours within three units of grey become grey: `hsv_near_grey_stored`; the hue can be 1: `hue_reaches_one`.
* C95 `landing_reads_no_speed`: if an event ends exactly on a dab, the step that ends the event has no time left; it is
  counted as a millisecond in which the pen rests (line 715), so that the reading of the speed drops, to 0 without slowness.
* C97 `white_turns_red`: each dab of pigment rounds downwards, so painting a colour over itself changes it a little more with every dab; ten
  faint dabs of white over white give a reddish white.
* C97 `erasing_tints`: a pigment eraser tints what it leaves: erasing a tenth of opaque white leaves 29491, 29486, 29485 of 29491.
* C98 `smudging_darkens`: sampling in the old way rounds every product of weight and channel down, so smudging over a picture of one
  colour makes it darker with every dab, unless each channel is empty or full.
* C99 `small_dab_has_an_angle`, `small_brush_has_an_angle`: the anti-aliased mask of dabs with a radius below 3 depends on the angle
  although the dab is round, and changes even by half a turn: `sign_point_in_line` tests against a line that does not go through the
  centre of the dab.
* C100 `uniform_area_fails_with_pigments`: picking a colour with pigments (as smudging does) from a uniform white area gives a colour
  that is darker with every sampled pixel.
* C102 `trail_depends_on_events`: slow tracking treats the pen as if it had been at its new place since the previous event, so a device
  that reports the same movement twice as often gets a different (longer) lag.
* C103 `resting_pen_loses_direction`: without the direction filter a step that does not move the brush (the pen rests, or an event ends
  exactly on a dab) sets the direction to zero, and the next dab reads the angle 0.
* C104 `upright_pen_reads_ninety`: a pen perpendicular to the tablet reads 90 on tilt_declinationx and tilt_declinationy (documented: 0),
  while one that leans a little reads almost 0.
* C104 `pause_tilts_the_pen`: the event inserted for a pause passes the tilt 90 in a range of -1 to 1 (and no barrel rotation), so the dabs
  of the pause read a pen that leans over, although it was upright all the time.
* C105 `hold_of_nine_point_nine_ends`: a stroke hold time of 9.9 is documented as infinite, but the input starts again (the code compares
  with `wrap > 9.9 + 1.0`).
* C106 `grid_lags_one_dab`: the grid map inputs are computed before the position is updated, so a dab reads the place of the dab before it.
* C106 `grid_border_flips`: on the borders of the cells the input is 0 for coordinates from zero on and 256 for negative ones.
* C111 `first_dab_does_not_turn`: without movement the direction inputs read the rotation of the view (lines 795 and 797 add it to an angle of 0), so the first dab of a stroke in a turned view has another angle than in one that is not turned.
* C112 `one_bad_pressure_spoils_the_stroke`, `infinite_pressure_spoils_the_stroke`: `pressure <= 0.0` is false for not-a-number, and the state is updated by adding a difference, so the bad value stays until a reset.
* C112 `one_bad_time_ends_the_brush`: `dtime <= 0` is false for not-a-number; with slow tracking the position becomes not-a-number, and a reset does not help, because line 1394 computes the new position from the old one before the reset.
* C115 `no_report_of_tilt_is_right`: the input for the tilt adds the rotation of the view to the reported ascension (line 800), the offsets that follow the tilt subtract it (lines 618, 644), so one of them is wrong by the rotation of the view whatever the application reports.
* C118 `events_move_custom`, `custom_comes_late`: the custom input also takes a step at the end of each motion event (lines 875-876 run in the call of line 1493), so how it follows depends on how often the tablet reports; and as inputs are read (line 811) before that step, each dab reads the value of the dab before, even without slowness.
* C122 `not_at_once`: with a smudge length of 0, which should take the colour of the canvas immediately, a hundredth of the old smudge colour stays at each dab (`MAX(0.01, smudge_length)` in `update_smudge_color`).
* C125 `reports_matter_per_dab`: with slow tracking per dab, the places of the dabs depend on how many events report the same movement, also at the same pace: the smoothing is applied once more at the end of each event, for the part of a dab that is done.
* C128 `small_harder_paints_less`: with anti-aliasing a slightly harder brush can paint less, because the correction makes its dabs grow past a radius of three pixels, where the mask is sampled more coarsely.
* C129 `bigger_dab_may_cover_less`: a dab of radius 2.99 covers a pixel more than one of radius 3, since the mask is sampled finely only below three pixels.
