import Verif.Model.Py
import Verif.Model.Version
import Verif.Model.Tags
import Verif.Model.Graph
import Verif.Lemmas.Dict
import Verif.Lemmas.List
import Verif.Lemmas.Graph
import Verif.Lemmas.Traverse
import Verif.Lemmas.Paths
import Verif.Props.GraphOps
import Verif.Props.GraphQueries
import Verif.Spec.Concrete
import Verif.Spec.Text
import Verif.Lemmas.Text
import Verif.Props.Version
import Verif.Props.Tags
import Verif.Model.DrawOrder
import Verif.Spec.DrawOrder
import Verif.Lemmas.DrawOrder
import Verif.Props.DrawOrder
import Verif.Model.Leaf
import Verif.Model.Data
import Verif.Lemmas.Leaf
import Verif.Props.Leaf
import Verif.Lemmas.Data
import Verif.Lemmas.DataShape
import Verif.Model.SpineNodes
import Verif.Model.AnimData
import Verif.Model.Editor
import Verif.Spec.Container
import Verif.Lemmas.Restrict
import Verif.Lemmas.Ids
import Verif.Lemmas.Build
import Verif.Lemmas.BuildState
import Verif.Lemmas.BuildShape
import Verif.Lemmas.BuildRead
import Verif.Lemmas.Doomed
import Verif.Spec.GraphDoc
import Verif.Props.SpineNodes
import Verif.Props.Scale
import Verif.Lemmas.Editor
import Verif.Props.EditorBasic
import Verif.Spec.Skins
import Verif.Spec.Sample
import Verif.Lemmas.Images
import Verif.Props.Images
import Verif.Lemmas.ShapeOf
import Verif.Lemmas.Defaults
import Verif.Lemmas.Core
import Verif.Lemmas.CleanRun
import Verif.Lemmas.CoreEditor
import Verif.Props.CleanBones
import Verif.Spec.Names
import Verif.Lemmas.Sync
import Verif.Lemmas.CleanSync
import Verif.Lemmas.SyncOps
import Verif.Lemmas.SkinOps
import Verif.Lemmas.Weak
import Verif.Spec.Visible
import Verif.Lemmas.Unused
import Verif.Lemmas.CleanFacts
import Verif.Lemmas.CleanTotal
import Verif.Lemmas.SampleRan
import Verif.Props.Clean
import Verif.Props.CleanExamples
import Verif.Props.DrawTwice
import Verif.Props.CleanTwice
import Verif.Lemmas.EraseSkins
import Verif.Props.EraseSkins
import Verif.Lemmas.Tidy
import Verif.Props.ImagesHistory
import Verif.Lemmas.Reload
import Verif.Props.Document
import Verif.Lemmas.Open
import Verif.Lemmas.Reopen
import Verif.Props.Reopen
import Verif.Lemmas.EraseTotal
import Verif.Lemmas.Rebuild
import Verif.Props.EraseTotal
import Verif.Spec.Runtime
import Verif.Props.Runtime
import Verif.Spec.Places
import Verif.Lemmas.Places
import Verif.Lemmas.PlacesOf
import Verif.Lemmas.PlacesAll
import Verif.Props.Places
import Verif.Model.Files
import Verif.Spec.Files
import Verif.Lemmas.Files
import Verif.Props.Files
import Verif.Spec.Drawn
import Verif.Props.Drawn
import Verif.Props.DrawnErase
import Verif.Props.DrawnExamples
import Verif.Spec.Frame
import Verif.Lemmas.Frame
import Verif.Props.Frame
import Verif.Model.Heap
import Verif.Lemmas.Heap
import Verif.Props.Heap
import Verif.Spec.Refs
import Verif.Lemmas.Refs
import Verif.Lemmas.RefsSlots
import Verif.Lemmas.RefsDoc
import Verif.Props.Refs
import Verif.Model.Traverse
import Verif.Spec.Paths
import Verif.Lemmas.TraverseData
import Verif.Lemmas.TraversePaths
import Verif.Props.Traverse
import Verif.Model.Recursion
import Verif.Spec.Depth
import Verif.Lemmas.Recursion
import Verif.Lemmas.RecursionDoc
import Verif.Props.Recursion
import Verif.Model.NoneNode
import Verif.Lemmas.NoneNode
import Verif.Props.NoneNode
import Verif.Model.Bulk
import Verif.Props.Bulk
import Verif.Model.Interfaces
import Verif.Props.Interfaces
import Verif.Model.Cast
import Verif.Props.Cast
import Verif.Model.JsonText
import Verif.Spec.JsonText
import Verif.Lemmas.JsonScan
import Verif.Lemmas.JsonText
import Verif.Lemmas.JsonEncode
import Verif.Lemmas.JsonStrict
import Verif.Lemmas.Fine
import Verif.Lemmas.FineEditor
import Verif.Spec.ConcreteFloat
import Verif.Lemmas.JsonLayout
import Verif.Spec.JsonLayout
import Verif.Props.JsonText
import Verif.Model.Alias
import Verif.Spec.Alias
import Verif.Spec.AliasSample
import Verif.Lemmas.AliasMono
import Verif.Lemmas.AliasSafe
import Verif.Lemmas.AliasSafeOps
import Verif.Lemmas.AliasSafeEdit
import Verif.Lemmas.AliasSafeRun
import Verif.Lemmas.AliasSafeCall
import Verif.Lemmas.AliasReach
import Verif.Lemmas.AliasWorld
import Verif.Props.Alias
import Verif.Props.AliasExamples
import Verif.Lemmas.SimBase
import Verif.Lemmas.SimTree
import Verif.Lemmas.SimCopy
import Verif.Lemmas.SimJson
import Verif.Lemmas.SimDefaults
import Verif.Lemmas.SimStep
import Verif.Lemmas.SimMake
import Verif.Lemmas.SimData
import Verif.Lemmas.SimNew
import Verif.Lemmas.SimSkin
import Verif.Lemmas.SimLoad
import Verif.Lemmas.SimView
import Verif.Lemmas.SimFocus
import Verif.Lemmas.SimEdit
import Verif.Lemmas.SimClean
import Verif.Lemmas.SimErase
import Verif.Lemmas.SimInv
import Verif.Lemmas.SimGraph
import Verif.Lemmas.SimScale
import Verif.Lemmas.SimWrite
import Verif.Lemmas.SimBuild
import Verif.Lemmas.SimRead
import Verif.Lemmas.SimImages
import Verif.Lemmas.SimEditor
import Verif.Lemmas.SimOpen
import Verif.Spec.AliasValue
import Verif.Lemmas.SimLive
import Verif.Props.AliasValues
import Verif.Props.AliasValuesExamples
import Verif.Model.SetOrder
import Verif.Spec.SetOrder
import Verif.Lemmas.SetOrder
import Verif.Props.SetOrder
import Verif.Lemmas.Compose
import Verif.Props.Compose
import Verif.Props.ComposeExamples
import Verif.Props.ComposeImages
import Verif.Props.RepoTests
import Verif.Spec.Saved
import Verif.Lemmas.Saved
import Verif.Lemmas.SavedPlaces
import Verif.Props.Saved
import Verif.Props.SavedExamples
import Verif.Spec.KeyOrder
import Verif.Lemmas.KeyOrder
import Verif.Lemmas.KeyOrderData
import Verif.Lemmas.KeyOrderGraph
import Verif.Lemmas.KeyOrderView
import Verif.Lemmas.KeyOrderEdit
import Verif.Props.KeyOrder
import Verif.Lemmas.State
import Verif.Lemmas.StateEdit
import Verif.Lemmas.StateLoad
import Verif.Spec.Sessions
import Verif.Props.Sessions
import Verif.Spec.FileSessions
import Verif.Props.FileSessions
import Verif.Model.AliasFiles
import Verif.Model.AliasImages
import Verif.Spec.AliasFiles
import Verif.Lemmas.AliasFiles
import Verif.Lemmas.AliasStart
import Verif.Props.AliasFiles
import Verif.Props.AliasImages
import Verif.Spec.DrawnSaved
import Verif.Lemmas.StateDrawn
import Verif.Props.DrawnSaved
import Verif.Model.Repr
import Verif.Spec.Repr
import Verif.Lemmas.Repr
import Verif.Model.Console
import Verif.Spec.Console
import Verif.Lemmas.Console
import Verif.Lemmas.ConsoleAtts
import Verif.Props.Console
import Verif.Model.Messages
import Verif.Props.Messages
import Verif.Spec.World
import Verif.Spec.WorldReal
import Verif.Props.World
import Verif.Props.WorldReal
import Verif.Spec.Meshes
import Verif.Props.Meshes
import Verif.Props.MeshesClean
import Verif.Model.Digits
import Verif.Spec.Digits
import Verif.Lemmas.Digits
import Verif.Props.Digits
import Verif.Model.Bytes
import Verif.Spec.Bytes
import Verif.Props.Bytes
import Verif.Lemmas.KeyOrderCaught
import Verif.Model.Surrogates
import Verif.Spec.Surrogates
import Verif.Props.Surrogates
import Verif.Props.RuntimeLean
import Verif.Props.DigitsErr
import Verif.Props.SurrogatesErr
import Verif.Props.CastChars
import Verif.Props.Switch
import Verif.Props.Curves
