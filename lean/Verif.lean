import Verif.Rib.InputBufferProps
import Verif.Rib.BinaryProps
import Verif.Rib.AsciiProps
import Verif.Rib.LexerProps
import Verif.Rib.NestedProps
import Verif.Filter.RenderUtilProps
import Verif.Filter.FramesProps
import Verif.Filter.CacheProps
import Verif.Filter.ValidateProps
import Verif.Riutil.PrimvarProps
import Verif.Util.EnumProps
import Verif.Util.BitVectorProps
import Verif.Util.SearchPathProps
import Verif.Util.IntrusiveListProps
import Verif.Util.PoolProps
import Verif.Core.OcclusionProps
import Verif.Core.CsgProps
import Verif.Core.SchedulerProps
import Verif.Core.ChannelBufferProps
import Verif.Tex.SupportProps
import Verif.Tex.TileArrayProps
import Verif.Tex.MipmapProps
import Verif.Tex.MagicProps
import Verif.Riutil.ClassCountsProps
import Verif.Core.MeshSplitProps
import Verif.Tex.WrapProps
import Verif.Tex.AccumProps
import Verif.Core.BucketPostProps
import Verif.Core.BucketCacheProps
import Verif.Rib.ParamListProps
import Verif.Rib.BinaryNumProps
import Verif.Shader.SimdProps
import Verif.Core.SamplesProps
import Verif.Core.FilterBucketProps
import Verif.Core.HitTestProps
import Verif.Core.SamplerProps
import Verif.Math.RandomProps
import Verif.Core.MotionProps
import Verif.Core.DofProps
import Verif.State.AttrProps
import Verif.State.TransformProps
import Verif.Math.MatrixProps
import Verif.Geom.BicubicProps
import Verif.Geom.PrimvarProps
import Verif.Geom.BilinearProps
import Verif.Geom.GenPolyProps
import Verif.Geom.PolygonProps
import Verif.Core.CullProps
import Verif.Core.LodProps
import Verif.Math.SplineProps
import Verif.Core.DisplayProps
import Verif.Geom.PointsProps
import Verif.Geom.BSpline
import Verif.Geom.TrimProps
import Verif.Geom.Nurbs
import Verif.Geom.NurbsLemmas
import Verif.Geom.NurbsCutLemmas
import Verif.Geom.NurbsClampLemmas
import Verif.Geom.NurbsSegLemmas
import Verif.Geom.NurbsSurfLemmas
import Verif.Geom.NurbsOpsLemmas
import Verif.Geom.NurbsProps
import Verif.Geom.Lath
import Verif.Geom.LathLemmas
import Verif.Geom.LathNearLemmas
import Verif.Geom.LathBuildLemmas
import Verif.Geom.LathFinalLemmas
import Verif.Geom.LathFacetLemmas
import Verif.Geom.LathProps
import Verif.Geom.Subd
import Verif.Geom.SubdLemmas
import Verif.Geom.SubdMaskLemmas
import Verif.Geom.SubdLimitLemmas
import Verif.Geom.SubdStepLemmas
import Verif.Geom.SubdProps
import Verif.Geom.SubdFace
import Verif.Geom.SubdExtLemmas
import Verif.Geom.SubdPointLemmas
import Verif.Geom.SubdQuadLemmas
import Verif.Geom.SubdLinkLemmas
import Verif.Geom.SubdDomLemmas
import Verif.Geom.SubdSplitLemmas
import Verif.Geom.SubdGrowLemmas
import Verif.Geom.SubdDoneLemmas
import Verif.Geom.SubdLevelLemmas
import Verif.Geom.SubdCallsLemmas
import Verif.Geom.SubdFaceProps
import Verif.Shader.Inline
import Verif.Shader.InlineSpec
import Verif.Shader.InlineLemmas
import Verif.Shader.InlineSim
import Verif.Shader.InlineProps
import Verif.Shader.Scope
import Verif.Shader.ScopeSpec
import Verif.Shader.ScopeLemmas
import Verif.Shader.ScopeSim
import Verif.Shader.ScopeStep
import Verif.Shader.ScopeRun
import Verif.Shader.ScopeProps
import Verif.Shader.Types
import Verif.Shader.TypesSpec
import Verif.Shader.TypesLemmas
import Verif.Shader.TypesSound
import Verif.Shader.TypesKnown
import Verif.Shader.TypesSafe
import Verif.Shader.TypesBest
import Verif.Shader.TypesProps
import Verif.Shader.SlxTable
import Verif.Shader.SlxTableLemmas
import Verif.Shader.Slx
import Verif.Shader.SlxSpec
import Verif.Shader.SlxLemmas
import Verif.Shader.SlxLoad
import Verif.Shader.SlxFile
import Verif.Shader.SlxSample
import Verif.Shader.SlxProps
import Verif.Geom.Quadric
import Verif.Geom.QuadricSpec
import Verif.Geom.QuadricLemmas
import Verif.Geom.QuadricBound
import Verif.Geom.QuadricProps
import Verif.Geom.QuadricNormalProps
import Verif.Tex.Mixed
import Verif.Tex.MixedSpec
import Verif.Tex.MixedLemmas
import Verif.Tex.MixedChans
import Verif.Tex.MixedProps
import Verif.Tex.MixedConvProps
import Verif.Tex.MixedReadProps
import Verif.Filter.Condition
import Verif.Filter.ConditionProps
import Verif.Shader.Stack
import Verif.Shader.StackProps
import Verif.Util.ArgParse
import Verif.Util.ArgParseSpec
import Verif.Util.ArgParseInt
import Verif.Util.ArgParseFeed
import Verif.Util.ArgParseSteps
import Verif.Util.ArgParseLine
import Verif.Util.ArgParseBack
import Verif.Util.ArgParseProps
import Verif.Tex.Ewa
import Verif.Tex.EwaSpec
import Verif.Tex.EwaLemmas
import Verif.Tex.EwaProps
import Verif.Tex.Env
import Verif.Tex.EnvSpec
import Verif.Tex.EnvLemmas
import Verif.Tex.EnvProps
import Verif.Tex.Level
import Verif.Tex.LevelProps
import Verif.Shader.TexOpts
import Verif.Shader.TexOptsLemmas
import Verif.Shader.TexOptsProps
import Verif.Math.Noise
import Verif.Math.NoiseLemmas
import Verif.Math.NoiseProps
import Verif.Math.Color
import Verif.Math.ColorLemmas
import Verif.Math.ColorProps
import Verif.Math.LowDiscrep
import Verif.Math.LowDiscrepLemmas
import Verif.Math.LowDiscrepProps
import Verif.Tools.Emitter
import Verif.Tools.EmitterLemmas
import Verif.Tools.EmitterProps
import Verif.Tools.Hairs
import Verif.Tools.HairsLemmas
import Verif.Tools.HairsProps
import Verif.Tex.Shadow
import Verif.Tex.ShadowLemmas
import Verif.Tex.ShadowProps
import Verif.Tex.Stoch
import Verif.Tex.StochSteps
import Verif.Tex.StochLemmas
import Verif.Tex.StochProps
import Verif.Geom.HPoint
import Verif.Geom.HPointLemmas
import Verif.Geom.HPointProps
import Verif.Geom.Curves
import Verif.Geom.CurvesLemmas
import Verif.Geom.CurvesProps
import Verif.Geom.RibbonLemmas
import Verif.Geom.RibbonProps
import Verif.Math.Cell
import Verif.Math.CellLemmas
import Verif.Math.CellProps
import Verif.Core.Camera
import Verif.Core.CameraLemmas
import Verif.Core.CameraProps
import Verif.Shader.Arith
import Verif.Shader.ArithLemmas
import Verif.Shader.ArithProps
import Verif.Shader.Optics
import Verif.Shader.OpticsLemmas
import Verif.Shader.OpticsProps
import Verif.Shader.Lights
import Verif.Shader.LightsLemmas
import Verif.Shader.LightsProps
import Verif.Point.MicroBuf
import Verif.Point.MicroBufLemmas
import Verif.Point.MicroBufProps
import Verif.Shader.Layers
import Verif.Shader.LayersLemmas
import Verif.Shader.LayersProps
import Verif.Shader.Text
import Verif.Shader.TextLemmas
import Verif.Shader.TextProps
import Verif.Shader.Deriv
import Verif.Shader.DerivLemmas
import Verif.Shader.DerivProps
import Verif.Point.Octree
import Verif.Point.OctreeLemmas
import Verif.Point.OctreeProps
import Verif.Point.Walk
import Verif.Point.WalkLemmas
import Verif.Point.WalkProps
import Verif.Core.PixelFilters
import Verif.Core.PixelFiltersLemmas
import Verif.Core.PixelFiltersProps
import Verif.Point.Radiosity
import Verif.Point.RadiosityLemmas
import Verif.Point.RadiosityProps
import Verif.Tools.Bmp
import Verif.Tools.BmpLemmas
import Verif.Tools.BmpProps
