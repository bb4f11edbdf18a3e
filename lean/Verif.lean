import Verif.Props.C01_Fifo
import Verif.Props.C02_TileMap
import Verif.Props.C03_OperationQueue
import Verif.Props.C06_DeferredDrawing
import Verif.Props.C10_Rectangle
import Verif.Props.C13_Mask
import Verif.Props.C11_Dab
import Verif.Props.C16_Blend
import Verif.Props.C17_BlendModes
import Verif.Props.C24_Symmetry
import Verif.Props.C26_SymmetryHistory
import Verif.Props.C09_DirtyRects
import Verif.Props.C57_TightRects
import Verif.Props.C22_GetColor
import Verif.Props.C27_Rng
import Verif.Props.C30_Mapping
import Verif.Props.C36_Hcy
import Verif.Props.C49_FixedSurface
import Verif.Props.C48_Names
import Verif.Props.C46_Load
import Verif.Props.C38_Buckets
import Verif.Props.C40_Events
import Verif.Props.C45_Split
import Verif.Props.C43_Motion
import Verif.Props.C44_Input
import Verif.Props.C56_Feedback
import Verif.Props.C42_Spacing
import Verif.Props.C53_Ranges
import Verif.Lemmas.EngineSession
import Verif.Props.C58_PlainColour
import Verif.Props.C59_DabShape
import Verif.Props.C60_Linearize
import Verif.Props.C61_Smudge
import Verif.Props.C63_Where
import Verif.Props.C44_Sampling
import Verif.Model.Painting
import Verif.Lemmas.EngineSim
import Verif.Lemmas.Painting
import Verif.Spec.PaintingDemo
import Verif.Props.C64_Painting
import Verif.Props.C67_Marks
import Verif.Model.GeglSurface
import Verif.Props.C69_Gegl
import Verif.Model.States
import Verif.Model.Brushes
import Verif.Spec.Quiet
import Verif.Lemmas.EngineTwin
import Verif.Props.C72_Replay
import Verif.Props.C74_Stroke
import Verif.Props.C75_Limit
import Verif.Model.QueueMemory
import Verif.Spec.QueueMemory
import Verif.Lemmas.QueueMemory
import Verif.Lemmas.QueueTidy
import Verif.Props.C76_Memory
import Verif.Model.Threads
import Verif.Lemmas.Threads
import Verif.Props.C77_Threads
import Verif.Model.Float32
import Verif.Spec.Float32
import Verif.Lemmas.Float32
import Verif.Model.FloatStroke
import Verif.Spec.FloatStroke
import Verif.Lemmas.FloatStroke
import Verif.Lemmas.FloatCount
import Verif.Lemmas.FloatLoop
import Verif.Props.C78_FloatStroke
import Verif.Model.FloatMask
import Verif.Spec.FloatMask
import Verif.Lemmas.FloatMask
import Verif.Lemmas.FloatRim
import Verif.Props.C79_FloatMask
import Verif.Spec.Slide
import Verif.Lemmas.EngineSlide
import Verif.Lemmas.PaintingSlide
import Verif.Props.C80_Everywhere
import Verif.Lemmas.PaintingTotal
import Verif.Props.C81_Total
import Verif.Spec.PaintNow
import Verif.Lemmas.EngineFollow
import Verif.Lemmas.PaintNow
import Verif.Props.C82_Grouping
import Verif.Model.SettingsApi
import Verif.Spec.SettingsApi
import Verif.Spec.Pose
import Verif.Lemmas.EnginePose
import Verif.Props.C83_SettingsApi
import Verif.Props.C84_UsedBuckets
import Verif.Props.C85_Pose
import Verif.Spec.Mirror
import Verif.Lemmas.MaskMirror
import Verif.Lemmas.PaintMirror
import Verif.Props.C86_Mirror
import Verif.Props.C87_SymmetricTotal
import Verif.Props.C88_Colourless
import Verif.Props.C89_FloatCurves
import Verif.Props.C90_FloatAngles
import Verif.Props.C91_FloatHsv
import Verif.Props.C92_Hover
import Verif.Props.C93_Rest
import Verif.Props.C94_Stencil
import Verif.Props.C95_Speed
import Verif.Lemmas.PolyCheck
import Verif.Model.FastPow
import Verif.Model.FloatPaint
import Verif.Lemmas.FastLog
import Verif.Lemmas.FastPow
import Verif.Lemmas.FloatPaint
import Verif.Props.C96_FastPow
import Verif.Props.C97_Pigment
import Verif.Lemmas.OpaquePicture
import Verif.Props.C98_Finger
import Verif.Lemmas.FloatEraser
import Verif.Props.C97_Eraser
import Verif.Spec.Angle
import Verif.Lemmas.EngineSpin
import Verif.Props.C99_Angle
import Verif.Lemmas.SymmetrySlide
import Verif.Props.C80_Symmetric
import Verif.Model.FloatSample
import Verif.Lemmas.FloatSample
import Verif.Lemmas.FloatAverage
import Verif.Spec.Pick
import Verif.Props.C100_Pick
import Verif.Props.C101_Pixel
import Verif.Props.C102_Tracking
import Verif.Props.C63_Scatter
import Verif.Props.C64_Scatter
import Verif.Props.C103_Direction
import Verif.Props.C104_Pen
import Verif.Props.C105_StrokeWay
import Verif.Props.C106_Grid
import Verif.Props.C107_Empty
import Verif.Props.C108_Local
import Verif.Props.C109_Pace
import Verif.Props.C110_Resize
import Verif.Props.C111_Swing
import Verif.Props.C112_Insane
import Verif.Props.C113_Glass
import Verif.Props.C114_ByHand
import Verif.Props.C115_Leaning
import Verif.Props.C116_BothSides
import Verif.Lemmas.EngineLight
import Verif.Props.C117_Tint
import Verif.Props.C118_Custom
import Verif.Props.C119_Ahead
import Verif.Props.C120_Looks
import Verif.Props.C121_Evened
import Verif.Props.C122_Carry
import Verif.Props.C123_Number
import Verif.Props.C124_Samples
import Verif.Props.C125_PerDab
import Verif.Props.C126_Harder
import Verif.Props.C126_Picture
import Verif.Props.C127_Opaquer
import Verif.Props.C127_Picture
import Verif.Props.C128_Edge
import Verif.Props.C128_Picture
import Verif.Props.C129_Bigger
import Verif.Props.C130_Nearer
import Verif.Props.C131_Towards
import Verif.Props.C132_Channels
