import Mathlib.Data.Rat.Defs
import Mathlib.Algebra.Order.Ring.Rat

/-!
# The tables of settings, inputs and states (`brushsettings.json`, `generate.py`)

Transcribed by a script from `/repo/brushsettings.json`: `generate.py` emits one enum and one array per
table, both in the order of the file, so that the id of an entry is its position.  Texts for people
(displayed names, tooltips) are left out. Numbers are exact decimals, not yet rounded to `float`; `none`
stands for a missing limit, which `generate.py:floatify` turns into plus or minus `FLT_MAX`.
-/

namespace Verif.Settings

/-- `MyPaintBrushSettingInfo`, mypaint-brush-settings.h:27-35. -/
structure SettingInfo where
  cname : String
  constant : Bool
  min : Option ℚ
  default : ℚ
  max : Option ℚ

/-- `MyPaintBrushInputInfo`, mypaint-brush-settings.h:48-57. -/
structure InputInfo where
  cname : String
  hardMin : Option ℚ
  softMin : Option ℚ
  normal : ℚ
  softMax : Option ℚ
  hardMax : Option ℚ

/-- `settings_info_array`, generated from brushsettings.json ("settings"). -/
def settings : List SettingInfo := [
  ⟨"opaque", false, some (0), (1), some (2)⟩,
  ⟨"opaque_multiply", false, some (0), (0), some (2)⟩,
  ⟨"opaque_linearize", true, some (0), (9/10), some (2)⟩,
  ⟨"radius_logarithmic", false, some (-2), (2), some (6)⟩,
  ⟨"hardness", false, some (0), (4/5), some (1)⟩,
  ⟨"softness", false, some (0), (0), some (1)⟩,
  ⟨"anti_aliasing", false, some (0), (1), some (5)⟩,
  ⟨"dabs_per_basic_radius", false, some (0), (0), some (200)⟩,
  ⟨"dabs_per_actual_radius", false, some (0), (2), some (200)⟩,
  ⟨"dabs_per_second", false, some (0), (0), some (200)⟩,
  ⟨"gridmap_scale", false, some (-10), (0), some (10)⟩,
  ⟨"gridmap_scale_x", false, some (0), (1), some (10)⟩,
  ⟨"gridmap_scale_y", false, some (0), (1), some (10)⟩,
  ⟨"radius_by_random", false, some (0), (0), some (3/2)⟩,
  ⟨"speed1_slowness", false, some (0), (1/25), some (1/5)⟩,
  ⟨"speed2_slowness", false, some (0), (4/5), some (3)⟩,
  ⟨"speed1_gamma", true, some (-8), (4), some (8)⟩,
  ⟨"speed2_gamma", true, some (-8), (4), some (8)⟩,
  ⟨"offset_by_random", false, some (0), (0), some (25)⟩,
  ⟨"offset_y", false, some (-40), (0), some (40)⟩,
  ⟨"offset_x", false, some (-40), (0), some (40)⟩,
  ⟨"offset_angle", false, some (-40), (0), some (40)⟩,
  ⟨"offset_angle_asc", false, some (-40), (0), some (40)⟩,
  ⟨"offset_angle_view", false, some (-40), (0), some (40)⟩,
  ⟨"offset_angle_2", false, some (0), (0), some (40)⟩,
  ⟨"offset_angle_2_asc", false, some (0), (0), some (40)⟩,
  ⟨"offset_angle_2_view", false, some (0), (0), some (40)⟩,
  ⟨"offset_angle_adj", false, some (-180), (0), some (180)⟩,
  ⟨"offset_multiplier", false, some (-2), (0), some (3)⟩,
  ⟨"offset_by_speed", false, some (-3), (0), some (3)⟩,
  ⟨"offset_by_speed_slowness", false, some (0), (1), some (15)⟩,
  ⟨"slow_tracking", true, some (0), (0), some (10)⟩,
  ⟨"slow_tracking_per_dab", false, some (0), (0), some (10)⟩,
  ⟨"tracking_noise", true, some (0), (0), some (12)⟩,
  ⟨"color_h", true, some (0), (0), some (1)⟩,
  ⟨"color_s", true, some (-1/2), (0), some (3/2)⟩,
  ⟨"color_v", true, some (-1/2), (0), some (3/2)⟩,
  ⟨"restore_color", true, some (0), (0), some (1)⟩,
  ⟨"change_color_h", false, some (-2), (0), some (2)⟩,
  ⟨"change_color_l", false, some (-2), (0), some (2)⟩,
  ⟨"change_color_hsl_s", false, some (-2), (0), some (2)⟩,
  ⟨"change_color_v", false, some (-2), (0), some (2)⟩,
  ⟨"change_color_hsv_s", false, some (-2), (0), some (2)⟩,
  ⟨"smudge", false, some (0), (0), some (1)⟩,
  ⟨"paint_mode", false, some (0), (1), some (1)⟩,
  ⟨"smudge_transparency", false, some (-1), (0), some (1)⟩,
  ⟨"smudge_length", false, some (0), (1/2), some (1)⟩,
  ⟨"smudge_length_log", false, some (0), (0), some (20)⟩,
  ⟨"smudge_bucket", false, some (0), (0), some (255)⟩,
  ⟨"smudge_radius_log", false, some (-8/5), (0), some (8/5)⟩,
  ⟨"eraser", false, some (0), (0), some (1)⟩,
  ⟨"stroke_threshold", true, some (0), (0), some (1/2)⟩,
  ⟨"stroke_duration_logarithmic", false, some (-1), (4), some (14)⟩,
  ⟨"stroke_holdtime", false, some (0), (0), some (10)⟩,
  ⟨"custom_input", false, some (-5), (0), some (5)⟩,
  ⟨"custom_input_slowness", false, some (0), (0), some (10)⟩,
  ⟨"elliptical_dab_ratio", false, some (1), (1), some (10)⟩,
  ⟨"elliptical_dab_angle", false, some (0), (90), some (180)⟩,
  ⟨"direction_filter", false, some (0), (2), some (10)⟩,
  ⟨"lock_alpha", false, some (0), (0), some (1)⟩,
  ⟨"colorize", false, some (0), (0), some (1)⟩,
  ⟨"posterize", false, some (0), (0), some (1)⟩,
  ⟨"posterize_num", false, some (1/100), (1/20), some (32/25)⟩,
  ⟨"snap_to_pixel", false, some (0), (0), some (1)⟩,
  ⟨"pressure_gain_log", true, some (-9/5), (0), some (9/5)⟩]

/-- `inputs_info_array`, generated from brushsettings.json ("inputs"). -/
def inputs : List InputInfo := [
  ⟨"pressure", some (0), some (0), (2/5), some (1), none⟩,
  ⟨"random", some (0), some (0), (1/2), some (1), some (1)⟩,
  ⟨"stroke", some (0), some (0), (1/2), some (1), some (1)⟩,
  ⟨"direction", some (0), some (0), (0), some (180), some (180)⟩,
  ⟨"tilt_declination", some (0), some (0), (0), some (90), some (90)⟩,
  ⟨"tilt_ascension", some (-180), some (-180), (0), some (180), some (180)⟩,
  ⟨"speed1", none, some (0), (1/2), some (4), none⟩,
  ⟨"speed2", none, some (0), (1/2), some (4), none⟩,
  ⟨"custom", none, some (-10), (0), some (10), none⟩,
  ⟨"direction_angle", some (0), some (0), (0), some (360), some (360)⟩,
  ⟨"attack_angle", some (-180), some (-180), (0), some (180), some (180)⟩,
  ⟨"tilt_declinationx", some (-90), some (-90), (0), some (90), some (90)⟩,
  ⟨"tilt_declinationy", some (-90), some (-90), (0), some (90), some (90)⟩,
  ⟨"gridmap_x", some (0), some (0), (0), some (256), some (256)⟩,
  ⟨"gridmap_y", some (0), some (0), (0), some (256), some (256)⟩,
  ⟨"viewzoom", some (-277/100), some (-277/100), (0), some (83/20), some (83/20)⟩,
  ⟨"brush_radius", some (-2), some (-2), (0), some (6), some (6)⟩,
  ⟨"barrel_rotation", some (-180), some (-180), (0), some (180), some (180)⟩]

/-- The names in the enum `MyPaintBrushState`, in order, generated from brushsettings.json ("states"). -/
def states : List String := [
  "x",
  "y",
  "pressure",
  "partial_dabs",
  "actual_radius",
  "smudge_ra",
  "smudge_ga",
  "smudge_ba",
  "smudge_a",
  "last_getcolor_r",
  "last_getcolor_g",
  "last_getcolor_b",
  "last_getcolor_a",
  "last_getcolor_recentness",
  "actual_x",
  "actual_y",
  "norm_dx_slow",
  "norm_dy_slow",
  "norm_speed1_slow",
  "norm_speed2_slow",
  "stroke",
  "stroke_started",
  "custom_input",
  "rng_seed",
  "actual_elliptical_dab_ratio",
  "actual_elliptical_dab_angle",
  "direction_dx",
  "direction_dy",
  "declination",
  "ascension",
  "viewzoom",
  "viewrotation",
  "direction_angle_dx",
  "direction_angle_dy",
  "attack_angle",
  "flip",
  "gridmap_x",
  "gridmap_y",
  "declinationx",
  "declinationy",
  "dabs_per_basic_radius",
  "dabs_per_actual_radius",
  "dabs_per_second",
  "barrel_rotation"]

/-- `MYPAINT_BRUSH_SETTINGS_COUNT`, `MYPAINT_BRUSH_INPUTS_COUNT`, `MYPAINT_BRUSH_STATES_COUNT`: the last
constant of each enum (generate.py: generate_enum). -/
def settingsCount : Nat := settings.length
def inputsCount : Nat := inputs.length
def statesCount : Nat := states.length

/-- The loop of `mypaint_brush_setting_from_cname` (mypaint-brush-settings.c:60-70) and of
`mypaint_brush_input_from_cname` (mypaint-brush-settings.c:92-102), from index `i` on. -/
def lookup (name : String) : Nat → List String → Int
  | _, [] => -1
  | i, n :: ns => if n = name then i else lookup name (i + 1) ns

/-- `mypaint_brush_setting_from_cname`. -/
def settingFromCname (name : String) : Int := lookup name 0 (settings.map (·.cname))

/-- `mypaint_brush_input_from_cname`. -/
def inputFromCname (name : String) : Int := lookup name 0 (inputs.map (·.cname))

/-- The value of an enum constant in a comparison such as `id >= MYPAINT_BRUSH_SETTINGS_COUNT`: the
enums have no negative constant, so the compiler represents them as `unsigned int`. -/
def asUnsigned (z : Int) : Nat := (z % 2 ^ 32).toNat

end Verif.Settings
