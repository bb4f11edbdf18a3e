import Verif.Model.Settings

/-!
# Names for the ids of settings and inputs

Generated from `/repo/brushsettings.json`, like the enums `MyPaintBrushSetting` and `MyPaintBrushInput`
(`/repo/generate.py`). `ids_match` checks every constant against the table.
-/

namespace Verif.Engine

/-- `MYPAINT_BRUSH_SETTING_OPAQUE` -/
abbrev sOpaque : Nat := 0
/-- `MYPAINT_BRUSH_SETTING_OPAQUE_MULTIPLY` -/
abbrev sOpaqueMultiply : Nat := 1
/-- `MYPAINT_BRUSH_SETTING_OPAQUE_LINEARIZE` -/
abbrev sOpaqueLinearize : Nat := 2
/-- `MYPAINT_BRUSH_SETTING_RADIUS_LOGARITHMIC` -/
abbrev sRadiusLogarithmic : Nat := 3
/-- `MYPAINT_BRUSH_SETTING_HARDNESS` -/
abbrev sHardness : Nat := 4
/-- `MYPAINT_BRUSH_SETTING_SOFTNESS` -/
abbrev sSoftness : Nat := 5
/-- `MYPAINT_BRUSH_SETTING_ANTI_ALIASING` -/
abbrev sAntiAliasing : Nat := 6
/-- `MYPAINT_BRUSH_SETTING_DABS_PER_BASIC_RADIUS` -/
abbrev sDabsPerBasicRadius : Nat := 7
/-- `MYPAINT_BRUSH_SETTING_DABS_PER_ACTUAL_RADIUS` -/
abbrev sDabsPerActualRadius : Nat := 8
/-- `MYPAINT_BRUSH_SETTING_DABS_PER_SECOND` -/
abbrev sDabsPerSecond : Nat := 9
/-- `MYPAINT_BRUSH_SETTING_GRIDMAP_SCALE` -/
abbrev sGridmapScale : Nat := 10
/-- `MYPAINT_BRUSH_SETTING_GRIDMAP_SCALE_X` -/
abbrev sGridmapScaleX : Nat := 11
/-- `MYPAINT_BRUSH_SETTING_GRIDMAP_SCALE_Y` -/
abbrev sGridmapScaleY : Nat := 12
/-- `MYPAINT_BRUSH_SETTING_RADIUS_BY_RANDOM` -/
abbrev sRadiusByRandom : Nat := 13
/-- `MYPAINT_BRUSH_SETTING_SPEED1_SLOWNESS` -/
abbrev sSpeed1Slowness : Nat := 14
/-- `MYPAINT_BRUSH_SETTING_SPEED2_SLOWNESS` -/
abbrev sSpeed2Slowness : Nat := 15
/-- `MYPAINT_BRUSH_SETTING_SPEED1_GAMMA` -/
abbrev sSpeed1Gamma : Nat := 16
/-- `MYPAINT_BRUSH_SETTING_SPEED2_GAMMA` -/
abbrev sSpeed2Gamma : Nat := 17
/-- `MYPAINT_BRUSH_SETTING_OFFSET_BY_RANDOM` -/
abbrev sOffsetByRandom : Nat := 18
/-- `MYPAINT_BRUSH_SETTING_OFFSET_Y` -/
abbrev sOffsetY : Nat := 19
/-- `MYPAINT_BRUSH_SETTING_OFFSET_X` -/
abbrev sOffsetX : Nat := 20
/-- `MYPAINT_BRUSH_SETTING_OFFSET_ANGLE` -/
abbrev sOffsetAngle : Nat := 21
/-- `MYPAINT_BRUSH_SETTING_OFFSET_ANGLE_ASC` -/
abbrev sOffsetAngleAsc : Nat := 22
/-- `MYPAINT_BRUSH_SETTING_OFFSET_ANGLE_VIEW` -/
abbrev sOffsetAngleView : Nat := 23
/-- `MYPAINT_BRUSH_SETTING_OFFSET_ANGLE_2` -/
abbrev sOffsetAngle2 : Nat := 24
/-- `MYPAINT_BRUSH_SETTING_OFFSET_ANGLE_2_ASC` -/
abbrev sOffsetAngle2Asc : Nat := 25
/-- `MYPAINT_BRUSH_SETTING_OFFSET_ANGLE_2_VIEW` -/
abbrev sOffsetAngle2View : Nat := 26
/-- `MYPAINT_BRUSH_SETTING_OFFSET_ANGLE_ADJ` -/
abbrev sOffsetAngleAdj : Nat := 27
/-- `MYPAINT_BRUSH_SETTING_OFFSET_MULTIPLIER` -/
abbrev sOffsetMultiplier : Nat := 28
/-- `MYPAINT_BRUSH_SETTING_OFFSET_BY_SPEED` -/
abbrev sOffsetBySpeed : Nat := 29
/-- `MYPAINT_BRUSH_SETTING_OFFSET_BY_SPEED_SLOWNESS` -/
abbrev sOffsetBySpeedSlowness : Nat := 30
/-- `MYPAINT_BRUSH_SETTING_SLOW_TRACKING` -/
abbrev sSlowTracking : Nat := 31
/-- `MYPAINT_BRUSH_SETTING_SLOW_TRACKING_PER_DAB` -/
abbrev sSlowTrackingPerDab : Nat := 32
/-- `MYPAINT_BRUSH_SETTING_TRACKING_NOISE` -/
abbrev sTrackingNoise : Nat := 33
/-- `MYPAINT_BRUSH_SETTING_COLOR_H` -/
abbrev sColorH : Nat := 34
/-- `MYPAINT_BRUSH_SETTING_COLOR_S` -/
abbrev sColorS : Nat := 35
/-- `MYPAINT_BRUSH_SETTING_COLOR_V` -/
abbrev sColorV : Nat := 36
/-- `MYPAINT_BRUSH_SETTING_RESTORE_COLOR` -/
abbrev sRestoreColor : Nat := 37
/-- `MYPAINT_BRUSH_SETTING_CHANGE_COLOR_H` -/
abbrev sChangeColorH : Nat := 38
/-- `MYPAINT_BRUSH_SETTING_CHANGE_COLOR_L` -/
abbrev sChangeColorL : Nat := 39
/-- `MYPAINT_BRUSH_SETTING_CHANGE_COLOR_HSL_S` -/
abbrev sChangeColorHslS : Nat := 40
/-- `MYPAINT_BRUSH_SETTING_CHANGE_COLOR_V` -/
abbrev sChangeColorV : Nat := 41
/-- `MYPAINT_BRUSH_SETTING_CHANGE_COLOR_HSV_S` -/
abbrev sChangeColorHsvS : Nat := 42
/-- `MYPAINT_BRUSH_SETTING_SMUDGE` -/
abbrev sSmudge : Nat := 43
/-- `MYPAINT_BRUSH_SETTING_PAINT_MODE` -/
abbrev sPaintMode : Nat := 44
/-- `MYPAINT_BRUSH_SETTING_SMUDGE_TRANSPARENCY` -/
abbrev sSmudgeTransparency : Nat := 45
/-- `MYPAINT_BRUSH_SETTING_SMUDGE_LENGTH` -/
abbrev sSmudgeLength : Nat := 46
/-- `MYPAINT_BRUSH_SETTING_SMUDGE_LENGTH_LOG` -/
abbrev sSmudgeLengthLog : Nat := 47
/-- `MYPAINT_BRUSH_SETTING_SMUDGE_BUCKET` -/
abbrev sSmudgeBucket : Nat := 48
/-- `MYPAINT_BRUSH_SETTING_SMUDGE_RADIUS_LOG` -/
abbrev sSmudgeRadiusLog : Nat := 49
/-- `MYPAINT_BRUSH_SETTING_ERASER` -/
abbrev sEraser : Nat := 50
/-- `MYPAINT_BRUSH_SETTING_STROKE_THRESHOLD` -/
abbrev sStrokeThreshold : Nat := 51
/-- `MYPAINT_BRUSH_SETTING_STROKE_DURATION_LOGARITHMIC` -/
abbrev sStrokeDurationLogarithmic : Nat := 52
/-- `MYPAINT_BRUSH_SETTING_STROKE_HOLDTIME` -/
abbrev sStrokeHoldtime : Nat := 53
/-- `MYPAINT_BRUSH_SETTING_CUSTOM_INPUT` -/
abbrev sCustomInput : Nat := 54
/-- `MYPAINT_BRUSH_SETTING_CUSTOM_INPUT_SLOWNESS` -/
abbrev sCustomInputSlowness : Nat := 55
/-- `MYPAINT_BRUSH_SETTING_ELLIPTICAL_DAB_RATIO` -/
abbrev sEllipticalDabRatio : Nat := 56
/-- `MYPAINT_BRUSH_SETTING_ELLIPTICAL_DAB_ANGLE` -/
abbrev sEllipticalDabAngle : Nat := 57
/-- `MYPAINT_BRUSH_SETTING_DIRECTION_FILTER` -/
abbrev sDirectionFilter : Nat := 58
/-- `MYPAINT_BRUSH_SETTING_LOCK_ALPHA` -/
abbrev sLockAlpha : Nat := 59
/-- `MYPAINT_BRUSH_SETTING_COLORIZE` -/
abbrev sColorize : Nat := 60
/-- `MYPAINT_BRUSH_SETTING_POSTERIZE` -/
abbrev sPosterize : Nat := 61
/-- `MYPAINT_BRUSH_SETTING_POSTERIZE_NUM` -/
abbrev sPosterizeNum : Nat := 62
/-- `MYPAINT_BRUSH_SETTING_SNAP_TO_PIXEL` -/
abbrev sSnapToPixel : Nat := 63
/-- `MYPAINT_BRUSH_SETTING_PRESSURE_GAIN_LOG` -/
abbrev sPressureGainLog : Nat := 64
/-- `MYPAINT_BRUSH_INPUT_PRESSURE` -/
abbrev iPressure : Nat := 0
/-- `MYPAINT_BRUSH_INPUT_RANDOM` -/
abbrev iRandom : Nat := 1
/-- `MYPAINT_BRUSH_INPUT_STROKE` -/
abbrev iStroke : Nat := 2
/-- `MYPAINT_BRUSH_INPUT_DIRECTION` -/
abbrev iDirection : Nat := 3
/-- `MYPAINT_BRUSH_INPUT_TILT_DECLINATION` -/
abbrev iTiltDeclination : Nat := 4
/-- `MYPAINT_BRUSH_INPUT_TILT_ASCENSION` -/
abbrev iTiltAscension : Nat := 5
/-- `MYPAINT_BRUSH_INPUT_SPEED1` -/
abbrev iSpeed1 : Nat := 6
/-- `MYPAINT_BRUSH_INPUT_SPEED2` -/
abbrev iSpeed2 : Nat := 7
/-- `MYPAINT_BRUSH_INPUT_CUSTOM` -/
abbrev iCustom : Nat := 8
/-- `MYPAINT_BRUSH_INPUT_DIRECTION_ANGLE` -/
abbrev iDirectionAngle : Nat := 9
/-- `MYPAINT_BRUSH_INPUT_ATTACK_ANGLE` -/
abbrev iAttackAngle : Nat := 10
/-- `MYPAINT_BRUSH_INPUT_TILT_DECLINATIONX` -/
abbrev iTiltDeclinationx : Nat := 11
/-- `MYPAINT_BRUSH_INPUT_TILT_DECLINATIONY` -/
abbrev iTiltDeclinationy : Nat := 12
/-- `MYPAINT_BRUSH_INPUT_GRIDMAP_X` -/
abbrev iGridmapX : Nat := 13
/-- `MYPAINT_BRUSH_INPUT_GRIDMAP_Y` -/
abbrev iGridmapY : Nat := 14
/-- `MYPAINT_BRUSH_INPUT_VIEWZOOM` -/
abbrev iViewzoom : Nat := 15
/-- `MYPAINT_BRUSH_INPUT_BRUSH_RADIUS` -/
abbrev iBrushRadius : Nat := 16
/-- `MYPAINT_BRUSH_INPUT_BARREL_ROTATION` -/
abbrev iBarrelRotation : Nat := 17

/-- Every constant above is the position of its name in the table. -/
theorem ids_match :
    ([(sOpaque, "opaque"), (sOpaqueMultiply, "opaque_multiply"), (sOpaqueLinearize, "opaque_linearize"),
      (sRadiusLogarithmic, "radius_logarithmic"), (sHardness, "hardness"), (sSoftness, "softness"),
      (sAntiAliasing, "anti_aliasing"), (sDabsPerBasicRadius, "dabs_per_basic_radius"),
      (sDabsPerActualRadius, "dabs_per_actual_radius"), (sDabsPerSecond, "dabs_per_second"), (sGridmapScale,
      "gridmap_scale"), (sGridmapScaleX, "gridmap_scale_x"), (sGridmapScaleY, "gridmap_scale_y"),
      (sRadiusByRandom, "radius_by_random"), (sSpeed1Slowness, "speed1_slowness"), (sSpeed2Slowness,
      "speed2_slowness"), (sSpeed1Gamma, "speed1_gamma"), (sSpeed2Gamma, "speed2_gamma"), (sOffsetByRandom,
      "offset_by_random"), (sOffsetY, "offset_y"), (sOffsetX, "offset_x"), (sOffsetAngle, "offset_angle"),
      (sOffsetAngleAsc, "offset_angle_asc"), (sOffsetAngleView, "offset_angle_view"), (sOffsetAngle2,
      "offset_angle_2"), (sOffsetAngle2Asc, "offset_angle_2_asc"), (sOffsetAngle2View,
      "offset_angle_2_view"), (sOffsetAngleAdj, "offset_angle_adj"), (sOffsetMultiplier,
      "offset_multiplier"), (sOffsetBySpeed, "offset_by_speed"), (sOffsetBySpeedSlowness,
      "offset_by_speed_slowness"), (sSlowTracking, "slow_tracking"), (sSlowTrackingPerDab,
      "slow_tracking_per_dab"), (sTrackingNoise, "tracking_noise"), (sColorH, "color_h"), (sColorS,
      "color_s"), (sColorV, "color_v"), (sRestoreColor, "restore_color"), (sChangeColorH, "change_color_h"),
      (sChangeColorL, "change_color_l"), (sChangeColorHslS, "change_color_hsl_s"), (sChangeColorV,
      "change_color_v"), (sChangeColorHsvS, "change_color_hsv_s"), (sSmudge, "smudge"), (sPaintMode,
      "paint_mode"), (sSmudgeTransparency, "smudge_transparency"), (sSmudgeLength, "smudge_length"),
      (sSmudgeLengthLog, "smudge_length_log"), (sSmudgeBucket, "smudge_bucket"), (sSmudgeRadiusLog,
      "smudge_radius_log"), (sEraser, "eraser"), (sStrokeThreshold, "stroke_threshold"),
      (sStrokeDurationLogarithmic, "stroke_duration_logarithmic"), (sStrokeHoldtime, "stroke_holdtime"),
      (sCustomInput, "custom_input"), (sCustomInputSlowness, "custom_input_slowness"), (sEllipticalDabRatio,
      "elliptical_dab_ratio"), (sEllipticalDabAngle, "elliptical_dab_angle"), (sDirectionFilter,
      "direction_filter"), (sLockAlpha, "lock_alpha"), (sColorize, "colorize"), (sPosterize, "posterize"),
      (sPosterizeNum, "posterize_num"), (sSnapToPixel, "snap_to_pixel"), (sPressureGainLog,
      "pressure_gain_log")].all
      fun p => (Settings.settings.map (·.cname))[p.1]? == some p.2) ∧
    ([(iPressure, "pressure"), (iRandom, "random"), (iStroke, "stroke"), (iDirection, "direction"),
      (iTiltDeclination, "tilt_declination"), (iTiltAscension, "tilt_ascension"), (iSpeed1, "speed1"),
      (iSpeed2, "speed2"), (iCustom, "custom"), (iDirectionAngle, "direction_angle"), (iAttackAngle,
      "attack_angle"), (iTiltDeclinationx, "tilt_declinationx"), (iTiltDeclinationy, "tilt_declinationy"),
      (iGridmapX, "gridmap_x"), (iGridmapY, "gridmap_y"), (iViewzoom, "viewzoom"), (iBrushRadius,
      "brush_radius"), (iBarrelRotation, "barrel_rotation")].all
      fun p => (Settings.inputs.map (·.cname))[p.1]? == some p.2) := by decide +kernel

end Verif.Engine
