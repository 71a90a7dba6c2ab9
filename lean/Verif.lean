import Verif.Props.DataflowLife
import Verif.Props.DataflowPipe
import Verif.Props.DataflowFork
import Verif.Props.DataflowArgs
import Verif.Props.Core
import Verif.Props.RandomSeed
import Verif.Props.PeakSearch
import Verif.Props.PeakBuild
import Verif.Props.PMaps
import Verif.Props.Configure
import Verif.Props.Components
import Verif.Props.Hits
import Verif.Props.XY
import Verif.Props.Voxels
import Verif.Props.Tracks
import Verif.Props.Blobs
import Verif.Props.DropVoxels
import Verif.Props.Filters
import Verif.Props.Wfm
import Verif.Props.Buffers
import Verif.Props.BufferTables
import Verif.Props.PMapsIO
import Verif.Props.PeakRebin
import Verif.Props.TableIO
import Verif.Props.KrEvent
import Verif.Props.HitBuilder
import Verif.Props.Calib
import Verif.Props.PmapFlow
import Verif.Props.Sources
import Verif.Props.Sampling
import Verif.Props.SamplingMulti
import Verif.Props.Deconv
import Verif.Props.DeconvEnergy
import Verif.Props.DeconvEvents
import Verif.Props.DeconvImage
import Verif.Props.Electrons
import Verif.Props.LightFunction
import Verif.Props.LightTables
import Verif.Props.S1
import Verif.Props.S2
import Verif.Props.S2Light
import Verif.Props.Paolina
import Verif.Props.PaolinaTotal
import Verif.Props.PaolinaTracks
import Verif.Props.McInfo
import Verif.Props.McInfoOld
import Verif.Props.Cities
import Verif.Props.CitiesDeco
import Verif.Props.CitiesHist
import Verif.Props.CitiesSim
import Verif.Props.CitiesTracks
import Verif.Props.CitiesWfs
import Verif.Props.Psf
import Verif.Props.PsfHits
import Verif.Props.KrMap
import Verif.Props.KrApply
import Verif.Props.Selection
import Verif.Props.TimeEvol
import Verif.Props.Corrections
import Verif.Props.Profile
import Verif.Props.FixedPars
import Verif.Props.LoadDb
import Verif.Props.Blr
import Verif.Props.BlrPmts
import Verif.Props.Fee
import Verif.Props.FeeSim
import Verif.Props.ChannelParams
import Verif.Props.ChannelRead
import Verif.Props.DarkConvolution
import Verif.Props.HitsIO
import Verif.Props.HitsStore
import Verif.Props.SpeResponse
import Verif.Props.Clusters
import Verif.Props.DeconvInput
import Verif.Props.DeconvPixels
import Verif.Props.DstLoad
import Verif.Props.Seeds
import Verif.Props.SeedsPeak
import Verif.Props.WfIO
import Verif.Props.WfIORun
import Verif.Props.Hypathia
import Verif.Props.PmapBuild
import Verif.Props.SipmSelect
import Verif.Props.ClusterHits
import Verif.Props.Zemrude
import Verif.Props.CityConfig
import Verif.Props.BuffyEvent
import Verif.Props.Binning
import Verif.Props.DetsimEvent
import Verif.Props.CityArgs
import Verif.Props.DiomiraEvent
import Verif.Props.DiomiraRun
import Verif.Props.DeconvSlice
import Verif.Props.DeconvSliceEvent
import Verif.Props.CalibBerenice
import Verif.Props.CalibCities
import Verif.Props.CalibCity
import Verif.Props.DbCopy
import Verif.Props.SqlConvert
import Verif.Props.LifetimeFit
import Verif.Props.ToyWaveform
import Verif.Props.ParamFiles
import Verif.Props.ShortestPaths
import Verif.Props.Compare
import Verif.Props.PaolinaPaths
import Verif.Props.Esmeralda
import Verif.Props.Sophronia
import Verif.Props.Isaura
import Verif.Props.Beersheba
import Verif.Props.Chain
import Verif.Props.IreneRun
import Verif.Props.Dorothea
import Verif.Props.SignalNoise
import Verif.Props.SimChain
import Verif.Props.DiomiraChain
import Verif.Props.McConvert
import Verif.Props.SimIrene
import Verif.Props.IreneFail
import Verif.Props.PMapsRms
import Verif.Props.LucySteps
import Verif.Props.Rounding
import Verif.Props.MinMaxShape
