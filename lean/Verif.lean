import Verif.Model.Archive
import Verif.Model.Basic
import Verif.Model.CApi
import Verif.Model.CArchives
import Verif.Model.CBuffers
import Verif.Model.CEncoders
import Verif.Model.CGather
import Verif.Model.CImputers
import Verif.Model.CInference
import Verif.Model.CInt
import Verif.Model.CMinMax
import Verif.Model.CPipelines
import Verif.Model.CRobust
import Verif.Model.CScalers
import Verif.Model.CStrings
import Verif.Model.Callbacks
import Verif.Model.Categorical
import Verif.Model.ChainArchive
import Verif.Model.Chrono
import Verif.Model.ComponentPipeline
import Verif.Model.ConcurrentDestroy
import Verif.Model.ContainerText
import Verif.Model.CountBits
import Verif.Model.CountEstimator
import Verif.Model.DataDirectory
import Verif.Model.DateText
import Verif.Model.DateTime
import Verif.Model.DocStats
import Verif.Model.Encoders
import Verif.Model.Estimator
import Verif.Model.ExecuteValue
import Verif.Model.Fills
import Verif.Model.Filter
import Verif.Model.FloatArith
import Verif.Model.FloatCategories
import Verif.Model.FloatDocs
import Verif.Model.FloatMedian
import Verif.Model.FloatMinMaxArchive
import Verif.Model.FloatNorms
import Verif.Model.FloatScalers
import Verif.Model.FloatStats
import Verif.Model.FloatText
import Verif.Model.FloatTfidf
import Verif.Model.FloatTimeSeries
import Verif.Model.FloatWindows
import Verif.Model.GlobalFrequency
import Verif.Model.Grain
import Verif.Model.GrainedWindows
import Verif.Model.Hash
import Verif.Model.MatrixProjections
import Verif.Model.Numeric
import Verif.Model.OMapOps
import Verif.Model.Pipeline
import Verif.Model.Pivot
import Verif.Model.PointerTable
import Verif.Model.RowCodec
import Verif.Model.RowTraining
import Verif.Model.SampleAdd
import Verif.Model.Scalers
import Verif.Model.ShortGrainDropper
import Verif.Model.StringFeaturizers
import Verif.Model.Strings
import Verif.Model.Structs
import Verif.Model.Text
import Verif.Model.TfidfCodes
import Verif.Model.TimeSeriesImputer
import Verif.Model.TimeSeriesLoad
import Verif.Model.TimeSeriesTraining
import Verif.Model.TrainingOnly
import Verif.Model.Traits
import Verif.Model.Transformer
import Verif.Model.Transformers
import Verif.Model.Types
import Verif.Model.UMapOps
import Verif.Model.Vectorizer
import Verif.Model.WindowPipeline
import Verif.Model.Windows
import Verif.Proofs.CApi
import Verif.Proofs.CBuffers
import Verif.Proofs.CResults
import Verif.Proofs.Calendar
import Verif.Proofs.Categorical
import Verif.Proofs.Codec
import Verif.Proofs.ComponentPipeline
import Verif.Proofs.Components
import Verif.Proofs.CountEstimator
import Verif.Proofs.DocStats
import Verif.Proofs.FloatArith
import Verif.Proofs.FloatCategories
import Verif.Proofs.FloatCentre
import Verif.Proofs.FloatDeviation
import Verif.Proofs.FloatInf
import Verif.Proofs.FloatMedian
import Verif.Proofs.FloatMinMax
import Verif.Proofs.FloatNorms
import Verif.Proofs.FloatNormsTrain
import Verif.Proofs.FloatQuotients
import Verif.Proofs.FloatReload
import Verif.Proofs.FloatRobust
import Verif.Proofs.FloatScale
import Verif.Proofs.FloatScaler
import Verif.Proofs.FloatShape
import Verif.Proofs.FloatStats
import Verif.Proofs.FloatSums
import Verif.Proofs.FloatText
import Verif.Proofs.FloatTfidf
import Verif.Proofs.Format
import Verif.Proofs.GrainedWindows
import Verif.Proofs.GramSchmidt
import Verif.Proofs.IntStats
import Verif.Proofs.MatrixProjections
import Verif.Proofs.MatrixSolvers
import Verif.Proofs.Median
import Verif.Proofs.PartStage
import Verif.Proofs.SvdState
import Verif.Proofs.TimeSeriesImputer
import Verif.Proofs.Vectorizer
import Verif.Proofs.Windows
import Verif.Props.Archive
import Verif.Props.CApi
import Verif.Props.CArchives
import Verif.Props.CDefault
import Verif.Props.CInputs
import Verif.Props.CResults
import Verif.Props.CallbackRetry
import Verif.Props.Callbacks
import Verif.Props.Categorical
import Verif.Props.ChainArchive
import Verif.Props.CircularBuffer
import Verif.Props.Clients
import Verif.Props.Codec
import Verif.Props.ConcurrentDestroy
import Verif.Props.Constructors
import Verif.Props.ContainerText
import Verif.Props.CountBits
import Verif.Props.CountEstimator
import Verif.Props.DataDirectory
import Verif.Props.DateText
import Verif.Props.DateTextLanguage
import Verif.Props.DateTextLong
import Verif.Props.DateTime
import Verif.Props.Deployable
import Verif.Props.DeployableInference
import Verif.Props.DeployedEncoders
import Verif.Props.DeployedFeaturizers
import Verif.Props.DeployedImputers
import Verif.Props.DeployedInference
import Verif.Props.DeployedMinMax
import Verif.Props.DeployedRobust
import Verif.Props.DeployedStrings
import Verif.Props.Deployment
import Verif.Props.DocStats
import Verif.Props.Encoders
import Verif.Props.Estimator
import Verif.Props.ExecuteValue
import Verif.Props.Fills
import Verif.Props.Filter
import Verif.Props.FloatArith
import Verif.Props.FloatCategories
import Verif.Props.FloatDocs
import Verif.Props.FloatGrammar
import Verif.Props.FloatMaxAbs
import Verif.Props.FloatMedian
import Verif.Props.FloatMinMax
import Verif.Props.FloatNorms
import Verif.Props.FloatReload
import Verif.Props.FloatRobust
import Verif.Props.FloatScaler
import Verif.Props.FloatStats
import Verif.Props.FloatText
import Verif.Props.FloatTfidf
import Verif.Props.FloatTimeSeries
import Verif.Props.FloatWindows
import Verif.Props.Format
import Verif.Props.GlobalFrequency
import Verif.Props.Grain
import Verif.Props.GrainArchive
import Verif.Props.GrainTraining
import Verif.Props.GrainedWindows
import Verif.Props.Holidays
import Verif.Props.Imputers
import Verif.Props.LagLead
import Verif.Props.Median
import Verif.Props.Normalize
import Verif.Props.Pca
import Verif.Props.PipelineExec
import Verif.Props.PipelineOrder
import Verif.Props.PipelineTrain
import Verif.Props.Pivot
import Verif.Props.PointerTable
import Verif.Props.Progress
import Verif.Props.Ranges
import Verif.Props.RobustScaler
import Verif.Props.RollingWindow
import Verif.Props.RowCodec
import Verif.Props.RowFloats
import Verif.Props.RowTraining
import Verif.Props.SampleAdd
import Verif.Props.Scalers
import Verif.Props.Sessions
import Verif.Props.ShortGrainDropper
import Verif.Props.StandardScaler
import Verif.Props.Statistics
import Verif.Props.StringFeaturizers
import Verif.Props.Strings
import Verif.Props.Text
import Verif.Props.Tfidf
import Verif.Props.TfidfCodes
import Verif.Props.TimeSeriesImputer
import Verif.Props.TimeSeriesTraining
import Verif.Props.Tokens
import Verif.Props.TrainingOnly
import Verif.Props.Transformers
import Verif.Props.TruncatedSvd
import Verif.Props.TsFrequency
import Verif.Props.Vectorizer
import Verif.Props.WindowPipeline
import Verif.Spec.CApi
import Verif.Spec.CBuffers
import Verif.Spec.Calendar
import Verif.Spec.Callbacks
import Verif.Spec.Clients
import Verif.Spec.Codec
import Verif.Spec.ComponentPipeline
import Verif.Spec.Components
import Verif.Spec.Constructors
import Verif.Spec.ContainerText
import Verif.Spec.DataDirectory
import Verif.Spec.DateText
import Verif.Spec.DateTime
import Verif.Spec.Deployment
import Verif.Spec.DocStats
import Verif.Spec.Filter
import Verif.Spec.FloatCategories
import Verif.Spec.FloatGrammar
import Verif.Spec.FloatMedian
import Verif.Spec.FloatNorms
import Verif.Spec.FloatScalers
import Verif.Spec.FloatStats
import Verif.Spec.FloatText
import Verif.Spec.FloatTfidf
import Verif.Spec.FloatWindows
import Verif.Spec.Format
import Verif.Spec.Grain
import Verif.Spec.GrainedWindows
import Verif.Spec.MatrixProjections
import Verif.Spec.Pipeline
import Verif.Spec.PipelineTraining
import Verif.Spec.Progress
import Verif.Spec.RowCodec
import Verif.Spec.RowTraining
import Verif.Spec.Series
import Verif.Spec.Sessions
import Verif.Spec.Tfidf
import Verif.Spec.TimeSeriesImputer
import Verif.Spec.TimeSeriesTraining
import Verif.Spec.Tokens
import Verif.Spec.Training
