import Verif.Props.Placement
import Verif.Props.Names
import Verif.Props.ReadBackV2
import Verif.Props.Metadata
import Verif.Props.Objects
import Verif.Props.Documents
import Verif.Props.Pyramid
import Verif.Props.PyramidV3
import Verif.Props.PyramidWide
import Verif.Spec.Numbers
import Verif.Props.PyramidFloat
import Verif.Props.StreamFiles
import Verif.Props.ReadBackV3
import Verif.Props.Shards
import Verif.Props.ShapesV3
import Verif.Props.Append
import Verif.Props.SplitCalls
import Verif.Props.SplitPyramid
import Verif.Props.ByteText
import Verif.Props.NameBytes
import Verif.Props.Parts
import Verif.Props.Trim
import Verif.Props.Settings
import Verif.Props.Api
import Verif.Props.Compression
import Verif.Props.Pool
import Verif.Props.Schedule
import Verif.Props.Creation
import Verif.Props.Failures
import Verif.Props.Crash
import Verif.Props.CrashDocs
import Verif.Props.S3Sink
import Verif.Props.S3Limits
import Verif.Props.S3Streams
import Verif.Props.S3Documents
import Verif.Lemmas.S3Crash
import Verif.Props.S3Crash
import Verif.Props.ObjectsV3
import Verif.Props.Blosc
import Verif.Props.Connections
import Verif.Props.ConnectionWait
import Verif.Props.Python
import Verif.Props.VectorWriter
import Verif.Props.Replace
import Verif.Props.TooLarge
import Verif.Props.Wrap
import Verif.Props.Reporting
import Verif.Props.Leak
import Verif.Props.Destroy
import Verif.Props.Isolation
import Verif.Props.SameData
import Verif.Model.Exceptions
import Verif.Lemmas.Exceptions
import Verif.Spec.Closed
import Verif.Lemmas.Closed
import Verif.Lemmas.ClosedStream
import Verif.Props.Exceptions
import Verif.Props.FailedChunks
import Verif.Props.FailedShards
import Verif.Props.Scaling
import Verif.Props.Signed
import Verif.Lemmas.OpenFiles
import Verif.Lemmas.Lattice
import Verif.Props.OpenFiles
import Verif.Model.Concurrent
import Verif.Lemmas.Concurrent
import Verif.Props.Threads
import Verif.Model.PySession
import Verif.Spec.Attributes
import Verif.Props.PySession
import Verif.Props.Logger
import Verif.Props.S3Success
import Verif.Spec.Reader
import Verif.Lemmas.Reader
import Verif.Props.Reader
import Verif.Props.S3Reader
import Verif.Props.S3Replace
import Verif.Spec.Ngff
import Verif.Props.Ngff
import Verif.Props.Credentials
import Verif.Props.Written
import Verif.Props.WorkDir
import Verif.Props.CallerMemory
import Verif.Props.PyMemory
import Verif.Props.Endpoint
import Verif.Props.CreateStorage
import Verif.Props.PyObject
import Verif.Props.StorePath
import Verif.Props.S3Written
import Verif.Spec.ShownShards
import Verif.Props.ReaderExact
import Verif.Props.PyKeywords
import Verif.Props.PyLog
import Verif.Props.S3Calls
import Verif.Props.Startup
import Verif.Props.Jobs
import Verif.Props.Memory
import Verif.Props.MemoryAgree
import Verif.Props.CustomMetadata
import Verif.Props.Readme
import Verif.Props.CreateEffects
import Verif.Props.Shown
import Verif.Props.LargeFrames
import Verif.Props.JobsAgree
import Verif.Props.IsolationS3
import Verif.Props.FlushJobs
import Verif.Props.StreamJobs
import Verif.Props.HealthyJobs
import Verif.Props.Lifetime
import Verif.Props.MakeDirs
