import Verif.Lemmas.GaussSky
import Verif.Lemmas.H4
import Verif.Lemmas.Hit
import Verif.Lemmas.Init
import Verif.Lemmas.ListChain
import Verif.Lemmas.ListRuns
import Verif.Lemmas.MathUtils
import Verif.Lemmas.Normal
import Verif.Lemmas.Placement
import Verif.Lemmas.PoissonLaw
import Verif.Lemmas.Prob
import Verif.Lemmas.Random
import Verif.Lemmas.ScatterLaw
import Verif.Lemmas.SolidAngle
import Verif.Lemmas.Table
import Verif.Lemmas.TableOps
import Verif.Lemmas.Tends
import Verif.Lemmas.Uniform
import Verif.Model.Analysis
import Verif.Model.Apertures
import Verif.Model.ArcusArf
import Verif.Model.ArcusCamera
import Verif.Model.BaffleDraw
import Verif.Model.Base
import Verif.Model.Bend
import Verif.Model.Boom
import Verif.Model.Budget
import Verif.Model.Calculated
import Verif.Model.CatStack
import Verif.Model.Chandra
import Verif.Model.ChandraHeader
import Verif.Model.ChandraMeta
import Verif.Model.Container
import Verif.Model.Defaults
import Verif.Model.DetChain
import Verif.Model.Draw
import Verif.Model.EffTable
import Verif.Model.FitsHeader
import Verif.Model.FlatStack
import Verif.Model.Focus
import Verif.Model.Geometry
import Verif.Model.Grating
import Verif.Model.GratingArray
import Verif.Model.Hetg
import Verif.Model.Imaging
import Verif.Model.Init
import Verif.Model.KeptPaths
import Verif.Model.ListChain
import Verif.Model.Lsf
import Verif.Model.LsfFit
import Verif.Model.Marx
import Verif.Model.MathUtils
import Verif.Model.MechGratings
import Verif.Model.MetaShell
import Verif.Model.Missions
import Verif.Model.MultiLayer
import Verif.Model.Ogip
import Verif.Model.OgipFiles
import Verif.Model.OgipHeader
import Verif.Model.Optics
import Verif.Model.Osip
import Verif.Model.OsipPlot
import Verif.Model.PhotonSteps
import Verif.Model.Placement
import Verif.Model.Random
import Verif.Model.RayChain
import Verif.Model.ResPower
import Verif.Model.Rmf0
import Verif.Model.RmfWave
import Verif.Model.Rowland
import Verif.Model.SceneJson
import Verif.Model.SharedConf
import Verif.Model.ShellRadius
import Verif.Model.SkySource
import Verif.Model.SmallTools
import Verif.Model.Source
import Verif.Model.Spo
import Verif.Model.Table
import Verif.Model.Telescopes
import Verif.Model.TgResolve
import Verif.Model.TolGratings
import Verif.Model.Tolerancing
import Verif.Model.Vec
import Verif.Model.Visual
import Verif.Model.WigglePlot
import Verif.Props.Achromatic
import Verif.Props.Analysis
import Verif.Props.Aperture
import Verif.Props.ApertureSize
import Verif.Props.Apertures
import Verif.Props.ArcusArf
import Verif.Props.ArcusCamera
import Verif.Props.Baffle
import Verif.Props.BaffleDraw
import Verif.Props.Base
import Verif.Props.Bend
import Verif.Props.Boom
import Verif.Props.Budget
import Verif.Props.Calculated
import Verif.Props.CatStack
import Verif.Props.Chandra
import Verif.Props.ChandraHeader
import Verif.Props.ChandraMeta
import Verif.Props.Chirp
import Verif.Props.Columns
import Verif.Props.Container
import Verif.Props.Cylinder
import Verif.Props.Defaults
import Verif.Props.DetChain
import Verif.Props.DetChain2
import Verif.Props.DetPixels
import Verif.Props.Draw
import Verif.Props.DrawBox
import Verif.Props.EffTable
import Verif.Props.ElementSize
import Verif.Props.EnergyFilter
import Verif.Props.FilterPlace
import Verif.Props.FitsHeader
import Verif.Props.FlatStack
import Verif.Props.Focus
import Verif.Props.GaussSky
import Verif.Props.Geometry
import Verif.Props.Grating
import Verif.Props.Grid
import Verif.Props.Hetg
import Verif.Props.Imaging
import Verif.Props.Init
import Verif.Props.KeptPaths
import Verif.Props.ListChain
import Verif.Props.ListMove
import Verif.Props.Lsf
import Verif.Props.LsfFit
import Verif.Props.Marx
import Verif.Props.MathUtils
import Verif.Props.MechGratings
import Verif.Props.MetaShell
import Verif.Props.MirrorImage
import Verif.Props.MirrorStack
import Verif.Props.Missions
import Verif.Props.MissionsMore
import Verif.Props.Mosaic
import Verif.Props.MultiArea
import Verif.Props.MultiLayer
import Verif.Props.Ogip
import Verif.Props.OgipFiles
import Verif.Props.OgipHeader
import Verif.Props.Optics
import Verif.Props.OrderConfusion
import Verif.Props.Osip
import Verif.Props.OsipPlot
import Verif.Props.ParallelPlane
import Verif.Props.PhotonSteps
import Verif.Props.Physical
import Verif.Props.Pipeline
import Verif.Props.Placement
import Verif.Props.PoissonLaw
import Verif.Props.PolPath
import Verif.Props.Polarization
import Verif.Props.Random
import Verif.Props.RandomLaw
import Verif.Props.ResPower
import Verif.Props.Reversal
import Verif.Props.RigidMotion
import Verif.Props.Rmf0
import Verif.Props.RmfWave
import Verif.Props.RowlandDetector
import Verif.Props.RowlandFocus
import Verif.Props.ScatterLaw
import Verif.Props.SceneJson
import Verif.Props.SharedConf
import Verif.Props.ShellRadius
import Verif.Props.Similarity
import Verif.Props.SkyPointing
import Verif.Props.SkySource
import Verif.Props.SmallMoves
import Verif.Props.SmallTools
import Verif.Props.SolidAngle
import Verif.Props.Source
import Verif.Props.Spectrograph
import Verif.Props.Spo
import Verif.Props.StartPlace
import Verif.Props.TelescopeParts
import Verif.Props.Telescopes
import Verif.Props.TgResolve
import Verif.Props.TolGratings
import Verif.Props.TolList
import Verif.Props.TolRun
import Verif.Props.Tolerancing
import Verif.Props.Torus
import Verif.Props.TorusChannels
import Verif.Props.TorusDesign
import Verif.Props.Transparent
import Verif.Props.Uniform
import Verif.Props.Unpolarized
import Verif.Props.Visual
import Verif.Props.VisualParts
import Verif.Props.VisualScene
import Verif.Props.VisualShapes
import Verif.Props.Weights
import Verif.Props.WigglePlot
import Verif.Spec.Achromatic
import Verif.Spec.Analysis
import Verif.Spec.ApertureSize
import Verif.Spec.Apertures
import Verif.Spec.ArcusArf
import Verif.Spec.ArcusCamera
import Verif.Spec.Base
import Verif.Spec.Bend
import Verif.Spec.Boom
import Verif.Spec.Budget
import Verif.Spec.Calculated
import Verif.Spec.CatStack
import Verif.Spec.Chandra
import Verif.Spec.ChandraHeader
import Verif.Spec.Columns
import Verif.Spec.Container
import Verif.Spec.Defaults
import Verif.Spec.DetChain
import Verif.Spec.Draw
import Verif.Spec.DrawBox
import Verif.Spec.EffTable
import Verif.Spec.ElementSize
import Verif.Spec.FitsHeader
import Verif.Spec.FlatStack
import Verif.Spec.Focus
import Verif.Spec.Geometry
import Verif.Spec.Hetg
import Verif.Spec.Imaging
import Verif.Spec.Init
import Verif.Spec.KeptPaths
import Verif.Spec.ListChain
import Verif.Spec.ListMove
import Verif.Spec.MathUtils
import Verif.Spec.MechGratings
import Verif.Spec.MetaShell
import Verif.Spec.MirrorImage
import Verif.Spec.MirrorStack
import Verif.Spec.Missions
import Verif.Spec.Mosaic
import Verif.Spec.MultiArea
import Verif.Spec.Ogip
import Verif.Spec.OgipHeader
import Verif.Spec.Optics
import Verif.Spec.OrderConfusion
import Verif.Spec.Osip
import Verif.Spec.OsipPlot
import Verif.Spec.ParallelPlane
import Verif.Spec.PhotonSteps
import Verif.Spec.Physical
import Verif.Spec.Pipeline
import Verif.Spec.Placement
import Verif.Spec.PoissonLaw
import Verif.Spec.PolPath
import Verif.Spec.Random
import Verif.Spec.RandomLaw
import Verif.Spec.ResPower
import Verif.Spec.Reversal
import Verif.Spec.RigidMotion
import Verif.Spec.Rmf0
import Verif.Spec.Rowland
import Verif.Spec.RowlandFocus
import Verif.Spec.ScatterLaw
import Verif.Spec.SceneJson
import Verif.Spec.SharedConf
import Verif.Spec.ShellRadius
import Verif.Spec.Similarity
import Verif.Spec.SkySource
import Verif.Spec.SmallMoves
import Verif.Spec.SolidAngle
import Verif.Spec.Source
import Verif.Spec.Spectrograph
import Verif.Spec.Spo
import Verif.Spec.StartPlace
import Verif.Spec.Telescopes
import Verif.Spec.TgResolve
import Verif.Spec.Tolerancing
import Verif.Spec.Transparent
import Verif.Spec.Uniform
import Verif.Spec.Unpolarized
import Verif.Spec.Visual
import Verif.Spec.Weights
import Verif.Spec.WigglePlot
