import Verif.Py
import Verif.Window.Model
import Verif.Window.Lemmas
import Verif.Window.PropsTimes
import Verif.Window.LemmasSampled

import Verif.Window.PropsSampled
import Verif.Window.LemmasConcat
import Verif.Window.PropsConcat
import Verif.Window.PropsFrames
import Verif.PyMore
import Verif.Utils.Model
import Verif.Utils.Props
import Verif.Pairing.Model
import Verif.Pairing.Props
import Verif.Pairing.PropsWindow
import Verif.Evaluation.Model
import Verif.Evaluation.Props
import Verif.Munkres.Model
import Verif.Munkres.Lemmas
import Verif.Munkres.Props
import Verif.Munkres.PropsBrute
import Verif.Logger.Model
import Verif.Logger.Lemmas
import Verif.Logger.Props
import Verif.Logger.PropsCrash
import Verif.Arrays.Model
import Verif.Arrays.Props
import Verif.Metrics.Model
import Verif.Metrics.Props
import Verif.Metrics.PropsEntropy
import Verif.Metrics.Sparsity
import Verif.Sound.Model
import Verif.Sound.Props
import Verif.Objects.Model
import Verif.Objects.Props
import Verif.Objects.PropsBuild
import Verif.Motion.Props
import Verif.Loaders.Props
import Verif.Loaders.PropsMore
import Verif.NMF.Model
import Verif.NMF.Props
import Verif.NMF.PropsMono
import Verif.Learner.Model
import Verif.Learner.Props
import Verif.Features.Model
import Verif.Features.Props
import Verif.Features.PropsKmeans
import Verif.Features.PropsHisto
import Verif.Features.PropsVQ
import Verif.KDE.Model
import Verif.KDE.Props
import Verif.KDE.Props2
import Verif.KDE.PropsOut
import Verif.KDE.PropsGauss
import Verif.KDE.PropsGauss2
import Verif.KDE.PropsKL
import Verif.KDE.PropsValues
import Verif.Experiment.Model
import Verif.Experiment.Lemmas
import Verif.Experiment.Keys
import Verif.Experiment.Props
import Verif.Experiment.PropsTotal
import Verif.Experiment.PropsRun
import Verif.Experiment.PropsRuns
import Verif.Experiment.PropsTwo
import Verif.Experiment.PropsTwoKeys
import Verif.Experiment.PropsTwoRun
import Verif.Experiment.PropsThree
import Verif.Experiment.PropsThreeRun
import Verif.Experiment.PropsComplete
import Verif.Experiment.PropsSerial
import Verif.Experiment.Examples
import Verif.Transf.Model
import Verif.Transf.Props
import Verif.Transf.Rotations
import Verif.Transf.Euler
import Verif.Transf.PropsEuler
import Verif.Transf.PropsEulerAxes
import Verif.Transf.PropsNames
import Verif.Transf.PropsQuatEuler
import Verif.Transf.PropsFromMatrix
import Verif.Transf.PropsAngles
import Verif.Transf.PropsArrays
import Verif.Transf.Examples
import Verif.Corpus.Model
import Verif.Corpus.Lemmas
import Verif.Corpus.Props
import Verif.Corpus.PropsInfo
import Verif.Corpus.PropsAcorns
import Verif.Corpus.PropsMore
import Verif.Corpus.Examples
import Verif.Plots.Model
import Verif.Plots.Lemmas
import Verif.Plots.Props
import Verif.Plots.PropsDraw
import Verif.Plots.PropsView
import Verif.Plots.Examples
import Verif.Samples.Model
import Verif.Samples.PropsWords
import Verif.Samples.PropsInfo
import Verif.Samples.PropsLabels
import Verif.Samples.Launcher
import Verif.Samples.PropsLauncher
import Verif.Samples.Sliding
import Verif.Samples.PropsSliding
import Verif.Samples.Examples
import Verif.Geom.Model
import Verif.Geom.Props
import Verif.Geom.PropsRotation
import Verif.Geom.PropsProjection
import Verif.Geom.PropsQuat
import Verif.Geom.Arcball
import Verif.Geom.PropsArcball
import Verif.Geom.Examples
import Verif.Geom.Decompose
import Verif.Geom.PropsDecompose
import Verif.Geom.Superimpose
import Verif.Geom.PropsSuperimpose
import Verif.Geom.ExamplesMore
import Verif.Geom.FromMatrix
import Verif.Geom.PropsFromMatrix
import Verif.Geom.PropsFromMatrix2
import Verif.Geom.PropsFromMatrix3
import Verif.Geom.ExamplesFrom
import Verif.KDE.PropsEntropy
import Verif.KDE.PropsKL2
import Verif.Features.PropsBinned
import Verif.Sklearn.Model
import Verif.Sklearn.Props
import Verif.Experiment.Table
import Verif.Experiment.PropsTable
import Verif.Datasets.Model
import Verif.Datasets.Props
import Verif.Datasets.PropsObjects
import Verif.Datasets.PropsAcorns
import Verif.Datasets.PropsChoreo
import Verif.Datasets.Codebooks
import Verif.Datasets.PropsCodebooks
import Verif.Style.Model
import Verif.Style.Props
import Verif.Sound.Dom
import Verif.Sound.PropsDom
import Verif.Experiment.Scripts
import Verif.Experiment.PropsScripts
import Verif.Experiment.ExamplesScripts
import Verif.Logger.Equal
import Verif.Logger.PropsEqual
import Verif.Experiment.Json
import Verif.Experiment.PropsJson
import Verif.Samples.Prepare
import Verif.Samples.PropsPrepare
import Verif.Plots.Figures
import Verif.Plots.PropsFigures
import Verif.Plots.PropsCurves
import Verif.Plots.ExamplesFigures
import Verif.Samples.Actions
import Verif.Samples.PropsActions
import Verif.Samples.PropsWatch
import Verif.Samples.ExamplesActions
import Verif.Datasets.PropsChoreo1
import Verif.Experiment.PropsSingle
import Verif.Samples.Jobs
import Verif.Samples.PropsJobs
import Verif.Samples.ExamplesJobs
import Verif.Samples.SlidingEval
import Verif.Samples.PropsSlidingEval
import Verif.Samples.ExamplesSlidingEval
import Verif.Motion.Export
import Verif.Motion.PropsExport
import Verif.Features.Mfcc
import Verif.Features.PropsMfcc
import Verif.Plots.Annotate
import Verif.Samples.SlidingPlot
import Verif.Samples.PropsSlidingPlot
import Verif.Samples.PropsSlidingFiles
import Verif.Samples.ExamplesSlidingPlot
import Verif.NDArray.Model
import Verif.NDArray.Props
import Verif.NDArray.Examples
import Verif.Imports.Model
import Verif.Imports.Props
import Verif.Imports.Examples
import Verif.Logger.PropsParallel
import Verif.Samples.PropsParallel
import Verif.Samples.ExamplesParallel
import Verif.NMF.PropsSparse
import Verif.NMF.ExamplesSparse
import Verif.Window.Float
import Verif.Window.Rounded
import Verif.Window.PropsRounded
import Verif.Window.PropsRoundedConcat
import Verif.Window.PropsRoundedSlider
import Verif.Window.ExamplesRounded
import Verif.Munkres.Rounded
import Verif.Munkres.PropsRounded
import Verif.Munkres.LemmasNear
import Verif.Munkres.PropsNear
import Verif.NMF.Double
import Verif.NMF.LemmasDouble
import Verif.NMF.PropsDouble
import Verif.NMF.ExactDouble
import Verif.Evaluation.Double
import Verif.Evaluation.LemmasDouble
import Verif.Evaluation.PropsDouble
import Verif.Evaluation.PropsCosine
import Verif.Evaluation.PropsKlDouble
import Verif.Evaluation.PropsScores
import Verif.Evaluation.ExamplesDouble
import Verif.Arrays.Double
import Verif.Arrays.PropsDouble
import Verif.Datasets.PropsDest
import Verif.Evaluation.LabelsDouble
import Verif.Evaluation.PropsLabelsDouble
import Verif.Evaluation.EntropyDouble
import Verif.Evaluation.PropsEntropyDouble
import Verif.Evaluation.PropsInfoDouble
import Verif.Evaluation.PropsMutualDouble
import Verif.Evaluation.ExamplesEntropy
import Verif.Window.Heap
import Verif.Window.PropsHeap
import Verif.Window.ExamplesHeap
import Verif.Logger.Heap
import Verif.Logger.PropsHeap
import Verif.Logger.ExamplesHeap
import Verif.Window.Steps
import Verif.Window.PropsSteps
import Verif.Window.ExamplesSteps
import Verif.KDE.Rounded
import Verif.KDE.LemmasRounded
import Verif.KDE.LemmasRounded2
import Verif.KDE.PropsRounded
import Verif.KDE.ExamplesRounded
import Verif.Window.Nested
import Verif.Window.LemmasNested
import Verif.Window.LemmasNested2
import Verif.Window.PropsNested
import Verif.Window.ExamplesNested
import Verif.KDE.Underflow
import Verif.KDE.PropsUnderflow
import Verif.KDE.ExamplesUnderflow
import Verif.Evaluation.Shapes
import Verif.Evaluation.PropsShapes
import Verif.Munkres.Shapes
import Verif.Munkres.PropsShapes
import Verif.Logger.Failures
import Verif.Logger.PropsFailures
import Verif.NDArray.Measures
import Verif.NDArray.PropsMeasures
import Verif.NDArray.Entropy
import Verif.NDArray.PropsEntropy
import Verif.Experiment.PropsModes
import Verif.Metrics.PropsShared
import Verif.KDE.ExamplesRounded2d
import Verif.KDE.PropsDisplaced
import Verif.Utils.Rounded
import Verif.Utils.PropsSplits
import Verif.Utils.PropsRounded
import Verif.Arrays.Effects
import Verif.Arrays.PropsEffects
import Verif.Features.Double
import Verif.Features.PropsDouble
import Verif.Geom.Double
import Verif.Geom.PropsDouble
import Verif.Metrics.HoyerDouble
import Verif.Metrics.PropsHoyerDouble
import Verif.Metrics.PropsHoyerError
import Verif.Utils.Integers
import Verif.Utils.PropsIntegers
import Verif.Motion.Failures
import Verif.Motion.PropsFailures
import Verif.Datasets.PropsInterrupted
import Verif.Sound.Loads
import Verif.Sound.PropsLoads
import Verif.NMF.PropsCalls
import Verif.Learner.PropsCalls
import Verif.Motion.Heap
import Verif.Motion.PropsHeap
import Verif.Features.PropsMfccBooks
import Verif.Objects.PropsNames
import Verif.Motion.PropsQueries
import Verif.Learner.PropsDims
import Verif.Geom.PropsArcballSettings
import Verif.Samples.PropsLauncherParams
import Verif.Experiment.Again
import Verif.Experiment.PropsAgain
import Verif.Learner.Double
import Verif.Learner.PropsDouble
import Verif.NDArray.PropsMatrices
import Verif.Experiment.CoefsDouble
import Verif.Experiment.PropsCoefsDouble
import Verif.Experiment.RunDouble
import Verif.Experiment.PropsRunDouble
