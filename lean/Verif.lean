import Verif.Model.Basic
import Verif.Model.Num
import Verif.Model.Core
import Verif.Model.Copy
import Verif.Model.Access
import Verif.Model.Convert
import Verif.Model.Serialize
import Verif.Spec.Tree
import Verif.Spec.Copy
import Verif.Lemmas.Num
import Verif.Lemmas.Map
import Verif.Lemmas.Dec
import Verif.Lemmas.Copy
import Verif.Props.Copy
import Verif.Spec.Wire
import Verif.Lemmas.Serialize
import Verif.Lemmas.DeSerialize
import Verif.Props.Serialize
import Verif.Spec.Values
import Verif.Spec.Number
import Verif.Model.Dispatch
import Verif.Model.Names
import Verif.Lemmas.Convert
import Verif.Props.Core
import Verif.Props.Names
import Verif.Props.Convert
import Verif.Spec.Access
import Verif.Spec.Elems
import Verif.Model.Promote
import Verif.Model.At
import Verif.Lemmas.Promote
import Verif.Props.Map
import Verif.Props.Matrix
import Verif.Props.GetIfExists
import Verif.Props.Promote
import Verif.Props.Push
import Verif.Props.At
import Verif.Model.CopyTo
import Verif.Lemmas.CopyTo
import Verif.Props.CopyTo
import Verif.Spec.View
import Verif.Model.Collapse
import Verif.Lemmas.Collapse
import Verif.Props.Collapse
import Verif.Model.Compare
import Verif.Spec.Same
import Verif.Props.Compare
import Verif.Model.CompareText
import Verif.Spec.Cell
import Verif.Spec.Report
import Verif.Lemmas.CompareText
import Verif.Props.CompareText
import Verif.Model.History
import Verif.Model.SerializeLeft
import Verif.Lemmas.History
import Verif.Props.History
import Verif.Props.Unchanged
import Verif.Model.Support
import Verif.Model.Support2
import Verif.Spec.Table
import Verif.Spec.Table2
import Verif.Lemmas.Table
import Verif.Lemmas.TableRead
import Verif.Lemmas.Table2
import Verif.Props.Table
import Verif.Props.Table2
import Verif.Props.TableWrite
import Verif.Props.Access
import Verif.Model.Json
import Verif.Spec.Json
import Verif.Lemmas.JsonLex
import Verif.Lemmas.JsonParse
import Verif.Lemmas.JsonTree
import Verif.Lemmas.JsonText
import Verif.Props.Json
import Verif.Model.CInterface
import Verif.Spec.Cursor
import Verif.Spec.COutcome
import Verif.Lemmas.CInterface
import Verif.Props.CInterface
import Verif.Props.COutcome
import Verif.Model.Lua
import Verif.Spec.Lua
import Verif.Lemmas.Lua
import Verif.Props.Lua
import Verif.Lemmas.LuaRead
import Verif.Props.LuaRead
import Verif.Lemmas.LuaTable
import Verif.Props.LuaTable
import Verif.Model.Docs
import Verif.Spec.Docs
import Verif.Lemmas.Docs
import Verif.Props.Docs
import Verif.Props.TomlWrite
import Verif.Model.Heap
import Verif.Model.HeapOps
import Verif.Spec.Heap
import Verif.Lemmas.Heap
import Verif.Lemmas.HeapCopy
import Verif.Lemmas.HeapOps
import Verif.Lemmas.HeapFits
import Verif.Lemmas.HeapStep
import Verif.Lemmas.HeapProg
import Verif.Lemmas.HeapAlias
import Verif.Props.Heap
import Verif.Props.VecRef
import Verif.Model.Writer
import Verif.Spec.Writer
import Verif.Lemmas.Writer
import Verif.Props.Writer
import Verif.Lemmas.SerializeCut
import Verif.Lemmas.SerializeInj
import Verif.Props.SerializeExact
import Verif.Props.WireRead
import Verif.Spec.Overlay
import Verif.Lemmas.Overlay
import Verif.Props.Overlay
import Verif.Props.Exact
import Verif.Model.Print
import Verif.Spec.Listing
import Verif.Spec.Texts
import Verif.Lemmas.Print
import Verif.Props.Print
import Verif.Props.Texts
import Verif.Model.YamlWrite
import Verif.Spec.Yaml
import Verif.Lemmas.YamlWrite
import Verif.Lemmas.YamlText
import Verif.Lemmas.YamlBack
import Verif.Props.YamlWrite
import Verif.Model.Rapid
import Verif.Spec.Rfc
import Verif.Spec.Rapid
import Verif.Lemmas.Rapid
import Verif.Lemmas.RapidNum
import Verif.Lemmas.RapidDoc
import Verif.Lemmas.RapidTree
import Verif.Props.Rapid
import Verif.Spec.RapidWrite
import Verif.Lemmas.RapidWrite
import Verif.Props.RapidWrite
import Verif.Model.Matlab
import Verif.Spec.Matlab
import Verif.Lemmas.Matlab
import Verif.Lemmas.MatlabBack
import Verif.Lemmas.MatlabKept
import Verif.Props.Matlab
import Verif.Model.Pointers
import Verif.Spec.Pointers
import Verif.Props.Pointers
import Verif.Model.Float
import Verif.Spec.Float
import Verif.Lemmas.Round
import Verif.Lemmas.Float
import Verif.Props.Float
import Verif.Model.Ruby
import Verif.Spec.Ruby
import Verif.Lemmas.Ruby
import Verif.Lemmas.RubyRead
import Verif.Lemmas.RubyBack
import Verif.Props.Ruby
import Verif.Spec.JsonLoose
import Verif.Lemmas.JsonLoose
import Verif.Props.JsonExact
import Verif.Spec.Sized
import Verif.Props.Sized
import Verif.Spec.EveryContent
import Verif.Props.EveryContent
import Verif.Spec.CopyTo
import Verif.Props.CopyToExact
import Verif.Spec.AnyKey
import Verif.Props.AnyKey
import Verif.Spec.TableRead
import Verif.Props.TableExact
import Verif.Spec.MatrixRef
import Verif.Props.MatrixRef
import Verif.Props.CollapseExact
import Verif.Spec.Pieces
import Verif.Props.Pieces
import Verif.Props.Again
import Verif.Model.LuaSession
import Verif.Spec.LuaList
import Verif.Spec.LuaRoom
import Verif.Props.LuaRoom
import Verif.Props.LuaBack
import Verif.Props.LuaGlobal
import Verif.Props.LuaList
import Verif.Spec.LuaHistory
import Verif.Props.LuaHistory
import Verif.Spec.DocsExact
import Verif.Props.DocsExact
import Verif.Spec.TomlExact
import Verif.Props.TomlExact
import Verif.Props.CopyDest
import Verif.Props.TableStream
import Verif.Props.Left
import Verif.Props.HeapCalls
import Verif.Spec.HeapFail
import Verif.Props.HeapFail
import Verif.Spec.HeapOverlap
import Verif.Spec.HeapStable
import Verif.Props.HeapStable
import Verif.Props.HeapArgs
import Verif.Lemmas.HeapIdle
import Verif.Lemmas.HeapSink
import Verif.Props.HeapOverlap
import Verif.Spec.Fill
import Verif.Props.Fill
import Verif.Props.HeapMerge
import Verif.Props.CopyAlias
