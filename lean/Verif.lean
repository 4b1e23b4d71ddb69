import Verif.Model.Base
import Verif.Model.Types
import Verif.Spec.Types
import Verif.Lemmas.Types
import Verif.Props.Types
import Verif.Model.Text
import Verif.Spec.Text
import Verif.Lemmas.Text
import Verif.Model.Dates
import Verif.Spec.Calendar
import Verif.Spec.DateText
import Verif.Lemmas.Dates
import Verif.Props.Dates
import Verif.Model.Base64
import Verif.Lemmas.Detect
import Verif.Props.Text
import Verif.Spec.Codec
import Verif.Lemmas.Codec
import Verif.Props.Codec
import Verif.Model.Value
import Verif.Spec.Value
import Verif.Lemmas.Value
import Verif.Props.Value
import Verif.Props.Compare
import Verif.Props.Buffers
import Verif.Props.Accept
import Verif.Model.Utils
import Verif.Spec.Utils
import Verif.Props.Utils
import Verif.Model.Sort
import Verif.Spec.Sort
import Verif.Props.Sort
import Verif.Model.Sha1
import Verif.Spec.Sha1
import Verif.Props.Sha1
import Verif.Model.Symbols
import Verif.Spec.Symbols
import Verif.Lemmas.Symbols
import Verif.Props.Symbols
import Verif.Model.Image
import Verif.Model.Create
import Verif.Lemmas.Image
import Verif.Lemmas.SymStore
import Verif.Props.SymStore
import Verif.Spec.Tree
import Verif.Lemmas.Store
import Verif.Lemmas.StoreNode
import Verif.Lemmas.FillData
import Verif.Props.Store
import Verif.Props.Room
import Verif.Props.Check
import Verif.Lemmas.Extend
import Verif.Lemmas.Shift
import Verif.Spec.Append
import Verif.Props.Append
import Verif.Model.Pack
import Verif.Spec.Pack
import Verif.Lemmas.PackTree
import Verif.Lemmas.PackNode
import Verif.Lemmas.PackMark
import Verif.Lemmas.Pack
import Verif.Lemmas.PackWrite
import Verif.Lemmas.PackFile
import Verif.Lemmas.PackRead
import Verif.Props.Pack
import Verif.Props.Plugins
import Verif.Props.Alloc
import Verif.Props.Rings
import Verif.Props.Timestamps
import Verif.Props.Dict
import Verif.Props.Roundtrip
import Verif.Model.Attrs
import Verif.Spec.Attrs
import Verif.Lemmas.Attrs
import Verif.Props.Attrs
import Verif.Spec.Search
import Verif.Props.Search
import Verif.Model.Dump
import Verif.Spec.Dump
import Verif.Lemmas.Dump
import Verif.Props.Dump
import Verif.Model.Jsmn
import Verif.Spec.Json
import Verif.Lemmas.Jsmn
import Verif.Lemmas.Json
import Verif.Lemmas.JsonTree
import Verif.Props.Json
import Verif.Model.Copy
import Verif.Spec.Copy
import Verif.Lemmas.Copy
import Verif.Lemmas.CopyOps
import Verif.Lemmas.CopyTree
import Verif.Props.Copy
import Verif.Model.Edit
import Verif.Spec.Edit
import Verif.Lemmas.Edit
import Verif.Lemmas.EditSet
import Verif.Props.Edit
import Verif.Props.Grow
import Verif.Props.Set
import Verif.Model.Source
import Verif.Spec.Source
import Verif.Lemmas.Source
import Verif.Lemmas.SourceXb
import Verif.Props.Source
import Verif.Model.Open
import Verif.Model.Register
import Verif.Lemmas.Open
import Verif.Lemmas.DictAlter
import Verif.Lemmas.RegisterId
import Verif.Props.Open
import Verif.Lemmas.SetStr
import Verif.Props.SetStr
import Verif.Model.Crash
import Verif.Spec.Crash
import Verif.Lemmas.CrashMake
import Verif.Lemmas.CrashStores
import Verif.Lemmas.Crash
import Verif.Lemmas.CrashOps
import Verif.Props.Crash
import Verif.Model.Keys
import Verif.Spec.Keys
import Verif.Lemmas.Keys
import Verif.Lemmas.Path
import Verif.Props.Keys
import Verif.Props.Path
import Verif.Props.Getters
import Verif.Props.MakeXbw
import Verif.Props.XmlSource
import Verif.Props.Stream
import Verif.Props.Convert
import Verif.Props.Scan
import Verif.Props.Files
import Verif.Props.Retype
import Verif.Props.Print
import Verif.Props.Tools
import Verif.Props.Log
import Verif.Props.Handles
import Verif.Props.Joins
import Verif.Props.Gen
import Verif.Props.Update
import Verif.Props.NodeName
import Verif.Props.JsonXb
import Verif.Props.ItemText
import Verif.Props.LogRoom
import Verif.Props.GetString
import Verif.Props.AppendRoom
import Verif.Props.AppendRefused
import Verif.Props.DataSize
import Verif.Props.CrashClear
import Verif.Props.CrashClearFalse
import Verif.Props.CrashRegister
import Verif.Props.CrashFirst
import Verif.Props.CrashRetype
import Verif.Props.CrashMove
