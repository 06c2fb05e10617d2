import Verif.Props.Containers
import Verif.Lemmas.LogExact
import Verif.Props.Snapshot
import Verif.Props.Log
import Verif.Props.Chunk
import Verif.Props.Serial
import Verif.Props.Fixed
import Verif.Props.Superchunk
import Verif.Props.SuperFloat
import Verif.Props.Dataset
import Verif.Props.Cache
import Verif.Props.CacheTasks
import Verif.Props.Array
import Verif.Props.Range
import Verif.Props.Resolver
import Verif.Props.DatasetFloat
import Verif.Props.FloatRange
import Verif.Props.Py
import Verif.Props.Cached
import Verif.Props.Sizes
import Verif.Props.Ipfs
import Verif.Lemmas.ReadWF
import Verif.Props.Limits
import Verif.Props.Names
import Verif.Model.PyDataset
import Verif.Lemmas.Rooted
import Verif.Lemmas.Formed
import Verif.Props.Types
import Verif.Props.Shapes
import Verif.Lemmas.Capacity
import Verif.Props.Settings
import Verif.Props.Negations
import Verif.Model.PyTime
import Verif.Props.PyTime
import Verif.Lemmas.Sequential
import Verif.Lemmas.BuildCongr
import Verif.Lemmas.Canon
import Verif.Props.Canon
import Verif.Lemmas.BuildSame
import Verif.Props.Schedule
import Verif.Lemmas.Missing
import Verif.Props.Missing
import Verif.Model.Task
import Verif.Lemmas.Task
import Verif.Lemmas.TaskEnds
import Verif.Lemmas.TaskAppend
import Verif.Lemmas.TaskProgress
import Verif.Props.Concurrent
import Verif.Lemmas.Accepted
import Verif.Props.Accepted
import Verif.Lemmas.Exact
import Verif.Lemmas.Fuel
import Verif.Props.Foreign
import Verif.Lemmas.Pruned
import Verif.Lemmas.Choice
import Verif.Props.Space
import Verif.Props.Lossless
import Verif.Lemmas.AnyData
import Verif.Props.AnyData
import Verif.Lemmas.Sides
import Verif.Lemmas.Needs
import Verif.Lemmas.NeedsRead
import Verif.Props.Needs
import Verif.Model.Example
import Verif.Lemmas.Example
import Verif.Props.Example
import Verif.Props.Example32
import Verif.Props.ExampleProgress
import Verif.Props.Verify
import Verif.Model.Du
import Verif.Lemmas.Du
import Verif.Props.Du
import Verif.Props.Intact
import Verif.Lemmas.AnySettled
import Verif.Props.AnySchedule
import Verif.Lemmas.AnyTask
import Verif.Props.AnyConcurrent
import Verif.Props.AnyReach
import Verif.Lemmas.Writes
import Verif.Model.Memory
import Verif.Lemmas.Memory
import Verif.Props.Memory
import Verif.Props.Readers
import Verif.Props.FloatTail
import Verif.Lemmas.Frozen
import Verif.Props.Frozen
import Verif.Tests
import Verif.Props.FloatLog
import Verif.Model.Errors
import Verif.Lemmas.Blame
import Verif.Props.Errors
import Verif.Lemmas.Adds
import Verif.Props.Adds
import Verif.Model.PyIter
import Verif.Props.PyIter
import Verif.Lemmas.Asks
import Verif.Props.Asks
import Verif.Model.Checked
import Verif.Lemmas.CheckedBuild
import Verif.Lemmas.CheckedRead
import Verif.Lemmas.CheckedSearch
import Verif.Lemmas.CheckedChunk
import Verif.Props.Checked
import Verif.Lemmas.Looks
import Verif.Lemmas.LooksSearch
import Verif.Lemmas.LooksFill
import Verif.Props.Looks
import Verif.Props.LooksSearch
import Verif.Props.LooksFill
import Verif.Lemmas.Bytes
import Verif.Props.Bytes
import Verif.Lemmas.CheckedAny
import Verif.Props.Ends
import Verif.Model.Alloc
import Verif.Lemmas.Alloc
import Verif.Props.Alloc
import Verif.Lemmas.Calm
import Verif.Props.Calm
import Verif.Lemmas.Rooms
import Verif.Lemmas.Agree
import Verif.Props.Agree
import Verif.Lemmas.Within
import Verif.Lemmas.Places
import Verif.Props.Within
import Verif.Props.Shows
import Verif.Props.Orders
import Verif.Props.OrdersBuilt
import Verif.Props.Zeros
import Verif.Props.Listings
import Verif.Props.PyCoord
import Verif.Model.CidText
import Verif.Props.CidText
import Verif.Props.Axes
import Verif.Props.Session
import Verif.Props.SessionCopy
import Verif.Props.PyVersions
