import Verif.Props.Arduino
import Verif.Props.Audio
import Verif.Props.Bayes
import Verif.Props.BayesAccuracy
import Verif.Props.BayesPython
import Verif.Props.BayesText
import Verif.Props.Benchmark
import Verif.Props.Bindings
import Verif.Props.Build
import Verif.Props.Cgen
import Verif.Props.CgenMore
import Verif.Props.Convert
import Verif.Props.Csv
import Verif.Props.Distance
import Verif.Props.DistancePython
import Verif.Props.DistanceText
import Verif.Props.EArray
import Verif.Props.ErrorStr
import Verif.Props.Fft
import Verif.Props.Filterbank
import Verif.Props.FloatAudio
import Verif.Props.FloatAudio32
import Verif.Props.FloatDistance
import Verif.Props.FloatFft
import Verif.Props.FloatFilterbank
import Verif.Props.FloatIir
import Verif.Props.FloatMixture
import Verif.Props.FloatMotion
import Verif.Props.FloatMotion32
import Verif.Props.FloatNet
import Verif.Props.FloatNetText
import Verif.Props.FloatQuant
import Verif.Props.FloatTrees
import Verif.Props.Gravity
import Verif.Props.Harness
import Verif.Props.Iir
import Verif.Props.Log
import Verif.Props.Mixture
import Verif.Props.MixtureBayesian
import Verif.Props.MixturePython
import Verif.Props.MixtureText
import Verif.Props.Motion
import Verif.Props.MotionColumns
import Verif.Props.MotionNames
import Verif.Props.MotionOptions
import Verif.Props.MotionPre
import Verif.Props.MotionProcess
import Verif.Props.MotionRun
import Verif.Props.Neighbors
import Verif.Props.NeighborsConvert
import Verif.Props.NeighborsPython
import Verif.Props.NeighborsText
import Verif.Props.Net
import Verif.Props.NetApi
import Verif.Props.NetCodegen
import Verif.Props.NetPython
import Verif.Props.NetReal
import Verif.Props.NetText
import Verif.Props.Pareto
import Verif.Props.Quant
import Verif.Props.Recorder
import Verif.Props.Save
import Verif.Props.Sensor
import Verif.Props.Session
import Verif.Props.Size
import Verif.Props.ToolsText
import Verif.Props.TreesAssert
import Verif.Props.TreesBuffer
import Verif.Props.TreesConvert
import Verif.Props.TreesInfer
import Verif.Props.TreesInline
import Verif.Props.TreesLeaf32
import Verif.Props.TreesLoadText
import Verif.Props.TreesPython
import Verif.Props.TreesQuantize
import Verif.Props.TreesSklearn
import Verif.Props.TreesSoftLoad
import Verif.Props.TreesText
import Verif.Props.TreesThreshold
import Verif.Props.TreesTrained
import Verif.Props.TreesTrainedLoad
import Verif.Props.TreesWrapper
import Verif.Props.Vector
