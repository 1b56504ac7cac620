import Verif.Abort.Lemmas
import Verif.Abort.Model
import Verif.Abort.Props
import Verif.Abort.Spec
import Verif.Arch.Lemmas
import Verif.Arch.Model
import Verif.Arch.Props
import Verif.Arch.Spec
import Verif.Bessel.Accuracy
import Verif.Bessel.CallLemmas
import Verif.Bessel.Lemmas
import Verif.Bessel.Model
import Verif.Bessel.Props
import Verif.Bessel.Spec
import Verif.Build.DocProps
import Verif.Build.Lemmas
import Verif.Build.Lint
import Verif.Build.LintProps
import Verif.Build.Model
import Verif.Build.Props
import Verif.Build.Spec
import Verif.Build.Yaml
import Verif.Build.YamlProps
import Verif.Chunks.Lemmas
import Verif.Chunks.Model
import Verif.Chunks.Props
import Verif.Clock.Lemmas
import Verif.Clock.Model
import Verif.Clock.Props
import Verif.Clock.Spec
import Verif.Common.Lists
import Verif.Config.Deprecated
import Verif.Config.DeprecatedProps
import Verif.Config.Model
import Verif.Config.Props
import Verif.Config.Shared
import Verif.Config.SharedLemmas
import Verif.Config.SharedProps
import Verif.Config.SharedSpec
import Verif.Cont.Filter
import Verif.Cont.FilterAttrs
import Verif.Cont.FilterAttrsProps
import Verif.Cont.FilterLemmas
import Verif.Cont.FilterProps
import Verif.Cont.History
import Verif.Cont.HistoryProps
import Verif.Cont.Lemmas
import Verif.Cont.Literal
import Verif.Cont.LiteralLemmas
import Verif.Cont.LiteralProps
import Verif.Cont.Model
import Verif.Cont.Props
import Verif.Cont.Tables
import Verif.Cont.TablesLemmas
import Verif.Cont.TablesProps
import Verif.Crawl.Lemmas
import Verif.Crawl.Model
import Verif.Crawl.Props
import Verif.Crawl.Spec
import Verif.Dirs.Lemmas
import Verif.Dirs.Model
import Verif.Dirs.Props
import Verif.Dist.Dset
import Verif.Dist.DsetProps
import Verif.Dist.Global
import Verif.Dist.GlobalLemmas
import Verif.Dist.GlobalProps
import Verif.Dist.Index
import Verif.Dist.IndexLemmas
import Verif.Dist.IndexProps
import Verif.Dist.IndexSpec
import Verif.Dist.Lemmas
import Verif.Dist.Model
import Verif.Dist.Np
import Verif.Dist.NpIndex
import Verif.Dist.NpReduce
import Verif.Dist.Reduce
import Verif.Dist.ReduceLemmas
import Verif.Dist.ReduceProps
import Verif.Dist.Spec
import Verif.Dist.TransposeLemmas
import Verif.Dist.TransposeProps
import Verif.Dist.Ufunc
import Verif.Dist.UfuncLemmas
import Verif.Dist.UfuncProps
import Verif.Dist.UfuncSpec
import Verif.Ephem.Lemmas
import Verif.Ephem.Model
import Verif.Ephem.Props
import Verif.Files.Lemmas
import Verif.Files.Model
import Verif.Files.Props
import Verif.Files.Spec
import Verif.Fit.Model
import Verif.Fit.Props
import Verif.Flow.Model
import Verif.Flow.Props
import Verif.Fmt.Lemmas
import Verif.Fmt.Model
import Verif.Fmt.Props
import Verif.Fmt.Spec
import Verif.Forms.Deco
import Verif.Forms.DecoLemmas
import Verif.Forms.DecoProps
import Verif.Forms.DecoSpec
import Verif.Forms.Grid
import Verif.Forms.GridLemmas
import Verif.Forms.GridProps
import Verif.Forms.GridSpec
import Verif.Forms.Lemmas
import Verif.Forms.Model
import Verif.Forms.Props
import Verif.Forms.Spec
import Verif.Fourier.Lemmas
import Verif.Fourier.Model
import Verif.Fourier.Pfb
import Verif.Fourier.PfbProps
import Verif.Fourier.Props
import Verif.Fourier.Spec
import Verif.Glob.Lemmas
import Verif.Glob.Model
import Verif.Glob.Props
import Verif.Glob.Spec
import Verif.Handle.Model
import Verif.Handle.Props
import Verif.Invert.Array
import Verif.Invert.Lemmas
import Verif.Invert.Model
import Verif.Invert.Props
import Verif.Iter.FailProps
import Verif.Iter.Lemmas
import Verif.Iter.Model
import Verif.Iter.Props
import Verif.Iter.Spec
import Verif.Load.Lemmas
import Verif.Load.Read
import Verif.Load.ReadLemmas
import Verif.Load.ReadProps
import Verif.Load.Select
import Verif.Load.SelectLemmas
import Verif.Load.SelectProps
import Verif.Load.SelectSpec
import Verif.Load.Spec
import Verif.Loading.Model
import Verif.Loading.Props
import Verif.Loading.Zip
import Verif.Lock.Lemmas
import Verif.Lock.Many
import Verif.Lock.ManyLemmas
import Verif.Lock.ManyProps
import Verif.Lock.Model
import Verif.Lock.Props
import Verif.Log.Lemmas
import Verif.Log.Model
import Verif.Log.Props
import Verif.Log.Spec
import Verif.Look.Lemmas
import Verif.Look.Model
import Verif.Look.Props
import Verif.Median.Double
import Verif.Median.Lemmas
import Verif.Median.MedLemmas
import Verif.Median.Model
import Verif.Median.Props
import Verif.Median.Rough
import Verif.Median.RoughProps
import Verif.Median.Spec
import Verif.Median.Whole
import Verif.Median.WholeProps
import Verif.Mem.Attrs
import Verif.Mem.AttrsProps
import Verif.Mem.Copy
import Verif.Mem.CopyInv
import Verif.Mem.CopyLemmas
import Verif.Mem.CopyLoop
import Verif.Mem.CopyProps
import Verif.Mem.CopyStep
import Verif.Mem.FailedLemmas
import Verif.Mem.FailedProps
import Verif.Mem.Json
import Verif.Mem.JsonLemmas
import Verif.Mem.JsonProps
import Verif.Mem.Lemmas
import Verif.Mem.Model
import Verif.Mem.Names
import Verif.Mem.NamesProps
import Verif.Mem.Nested
import Verif.Mem.NestedProps
import Verif.Mem.Places
import Verif.Mem.PlacesLemmas
import Verif.Mem.PlacesOwn
import Verif.Mem.PlacesProps
import Verif.Mem.PlacesSpec
import Verif.Mem.Props
import Verif.Mem.Spec
import Verif.Moving.Full
import Verif.Moving.FullProps
import Verif.Moving.Lemmas
import Verif.Moving.Model
import Verif.Moving.Props
import Verif.Moving.RoughProps
import Verif.Moving.Spec
import Verif.Moving.WholeProps
import Verif.Mpi.Arr
import Verif.Mpi.Common
import Verif.Mpi.CommonProps
import Verif.Mpi.GatherLemmas
import Verif.Mpi.GatherProps
import Verif.Mpi.Lemmas
import Verif.Mpi.Model
import Verif.Mpi.Order
import Verif.Mpi.Redist
import Verif.Mpi.RedistProps
import Verif.Mpi.Spec
import Verif.Mpi.Transpose
import Verif.Mpi.TransposeProps
import Verif.Names.Model
import Verif.Names.Props
import Verif.Nodes.Check
import Verif.Nodes.Model
import Verif.Nodes.Props
import Verif.Nodes.Waiting
import Verif.Obj.Equal
import Verif.Obj.EqualProps
import Verif.Obj.Size
import Verif.PartIO.Lemmas
import Verif.PartIO.Model
import Verif.PartIO.Props
import Verif.PartIO.Spec
import Verif.Pipe.Crash
import Verif.Pipe.CrashLemmas
import Verif.Pipe.CrashProps
import Verif.Pipe.Inter
import Verif.Pipe.InterLemmas
import Verif.Pipe.InterProps
import Verif.Pipe.Inv
import Verif.Pipe.Lemmas
import Verif.Pipe.Log
import Verif.Pipe.Model
import Verif.Pipe.Order
import Verif.Pipe.OrderProps
import Verif.Pipe.OrderSpec
import Verif.Pipe.Ports
import Verif.Pipe.PortsLemmas
import Verif.Pipe.PortsProps
import Verif.Pipe.Procs
import Verif.Pipe.ProcsLemmas
import Verif.Pipe.ProcsProps
import Verif.Pipe.ProcsSpec
import Verif.Pipe.Props
import Verif.Pipe.Spec
import Verif.Pipe.Term
import Verif.Pipe.Valid
import Verif.Pipe.ValidProps
import Verif.Pipe.ValidSpec
import Verif.Proto.Create
import Verif.Proto.CreateProps
import Verif.Proto.CreateShapeProps
import Verif.Proto.Lemmas
import Verif.Proto.Model
import Verif.Proto.Props
import Verif.Proto.Spec
import Verif.Quick.Float
import Verif.Quick.FloatDouble
import Verif.Quick.FloatLemmas
import Verif.Quick.FloatProps
import Verif.Quick.FloatRound
import Verif.Quick.Layout
import Verif.Quick.LayoutProps
import Verif.Quick.Lemmas
import Verif.Quick.Model
import Verif.Quick.Outer
import Verif.Quick.Props
import Verif.Quick.Spec
import Verif.Reader.Lemmas
import Verif.Reader.Model
import Verif.Reader.Props
import Verif.Reader.Spec
import Verif.Reshape.Lemmas
import Verif.Reshape.Model
import Verif.Reshape.Props
import Verif.Reshape.Spec
import Verif.Rng.Call
import Verif.Rng.Model
import Verif.Rng.Props
import Verif.Rng.Seeds
import Verif.Rng.SeedsProps
import Verif.Roots.Model
import Verif.Roots.Props
import Verif.Roots.Transit
import Verif.Roots.TransitModel
import Verif.RowWrite.Rows
import Verif.Runner.OptionsProps
import Verif.Runner.Profile
import Verif.Runner.ProfileProps
import Verif.Runner.Script
import Verif.Runner.ScriptProps
import Verif.Runner.Words
import Verif.Save.Lemmas
import Verif.Save.Model
import Verif.Save.Props
import Verif.Save.Spec
import Verif.Serial.Model
import Verif.Serial.Props
import Verif.Shorten.Lemmas
import Verif.Shorten.MachineLemmas
import Verif.Shorten.Model
import Verif.Shorten.Props
import Verif.Shorten.Spec
import Verif.Slice.Assign
import Verif.Slice.AssignProps
import Verif.Slice.Lemmas
import Verif.Slice.Model
import Verif.Slice.Props
import Verif.Slice.Spec
import Verif.Sphere.GroundProps
import Verif.Sphere.Lemmas
import Verif.Sphere.Model
import Verif.Sphere.Props
import Verif.Sphere.Spec
import Verif.Split.Lemmas
import Verif.Split.Model
import Verif.Split.Props
import Verif.Split.Share
import Verif.Split.ShareProps
import Verif.Split.Spec
import Verif.Stellar.Lemmas
import Verif.Stellar.Model
import Verif.Stellar.Props
import Verif.Stellar.Spec
import Verif.Store.Lemmas
import Verif.Store.Model
import Verif.Store.Props
import Verif.Store.Spec
import Verif.Tasks.Accumulate
import Verif.Tasks.Documents
import Verif.Tasks.DocumentsProps
import Verif.Tasks.Jobs
import Verif.Tasks.JobsProps
import Verif.Tasks.Nan
import Verif.Tasks.NanProps
import Verif.Tasks.Script
import Verif.Tasks.Select
import Verif.Tasks.SelectProps
import Verif.Tasks.Systems
import Verif.Tasks.SystemsProps
import Verif.Tasks.TimeLimit
import Verif.Tasks.Zip
import Verif.Tod.Distributed
import Verif.Tod.DistributedLemmas
import Verif.Tod.DistributedProps
import Verif.Tod.DistributedSpec
import Verif.Tod.Filter
import Verif.Tod.FilterProps
import Verif.Tod.Lemmas
import Verif.Tod.Model
import Verif.Tod.Props
import Verif.Tod.Rest
import Verif.Tod.RestLemmas
import Verif.Tod.RestProps
import Verif.Tod.Spec
import Verif.Trunc.ArrModel
import Verif.Trunc.ArrProps
import Verif.Trunc.FloatLemmas
import Verif.Trunc.FloatProps
import Verif.Trunc.FloatValues
import Verif.Trunc.Lemmas
import Verif.Trunc.Model
import Verif.Trunc.Props
import Verif.Trunc.Spec
import Verif.Types.Bytes
import Verif.Types.BytesProps
import Verif.Types.Model
import Verif.Types.Order
import Verif.Types.OrderProps
import Verif.Types.Props
import Verif.Types.Spec
import Verif.Util.Lemmas
import Verif.Util.Model
import Verif.Util.Props
import Verif.Util.Spec
import Verif.Views.Model
import Verif.Views.Props
