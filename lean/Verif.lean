import Verif.Py.Base32
import Verif.Py.Base64
import Verif.Py.DateTime
import Verif.Py.Dec
import Verif.Py.Dict
import Verif.Py.Env
import Verif.Py.Float
import Verif.Py.Num
import Verif.Py.Str
import Verif.Py.Utf8
import Verif.Model.Balance
import Verif.Model.CashReg
import Verif.Model.CsvText
import Verif.Model.DemoText
import Verif.Model.DemoTool
import Verif.Model.DepExport
import Verif.Model.DepParser
import Verif.Model.Err
import Verif.Model.Exceptions
import Verif.Model.ExportText
import Verif.Model.Falsify
import Verif.Model.FileWrite
import Verif.Model.Files
import Verif.Model.Gui
import Verif.Model.GuiKeys
import Verif.Model.GuiReceipt
import Verif.Model.GuiRun
import Verif.Model.GuiThreads
import Verif.Model.Json
import Verif.Model.JsonLoad
import Verif.Model.KeyStore
import Verif.Model.KeyTool
import Verif.Model.LineTools
import Verif.Model.Pool
import Verif.Model.Receipt
import Verif.Model.RunTest
import Verif.Model.RunTestFull
import Verif.Model.State
import Verif.Model.StateTool
import Verif.Model.TestVerify
import Verif.Model.UrlTools
import Verif.Model.UsedIds
import Verif.Model.VerifyCert
import Verif.Model.VerifyDEP
import Verif.Model.VerifyGroup
import Verif.Model.VerifyReceipt
import Verif.Model.VerifyTool
import Verif.Spec.Calendar
import Verif.Spec.CashReg
import Verif.Spec.CashRegMakes
import Verif.Spec.Cluster
import Verif.Spec.DemoTool
import Verif.Spec.DepErrors
import Verif.Spec.DepExport
import Verif.Spec.DepParser
import Verif.Spec.DepRules
import Verif.Spec.EndToEnd
import Verif.Spec.Falsify
import Verif.Spec.Fleet
import Verif.Spec.GroupErrors
import Verif.Spec.IntText
import Verif.Spec.JsonText
import Verif.Spec.JsonValue
import Verif.Spec.KeyStore
import Verif.Spec.KeyTool
import Verif.Spec.LineTools
import Verif.Spec.Receipt
import Verif.Spec.RunTest
import Verif.Spec.SortedIds
import Verif.Spec.StateJson
import Verif.Spec.StateTool
import Verif.Spec.TestContents
import Verif.Spec.TestFalsify
import Verif.Spec.TestLinks
import Verif.Spec.TestVerify
import Verif.Spec.VerifyGroup
import Verif.Spec.VerifyReceipt
import Verif.Lemmas.Arbitrary
import Verif.Lemmas.Calendar
import Verif.Lemmas.CashReg
import Verif.Lemmas.CashRegHistory
import Verif.Lemmas.Certless
import Verif.Lemmas.Cluster
import Verif.Lemmas.Demo
import Verif.Lemmas.DemoGroup
import Verif.Lemmas.DemoReceipt
import Verif.Lemmas.Dep
import Verif.Lemmas.DepParser
import Verif.Lemmas.Falsify
import Verif.Lemmas.Formats
import Verif.Lemmas.GroupErrors
import Verif.Lemmas.IncAccept
import Verif.Lemmas.IncParser
import Verif.Lemmas.KeyStore
import Verif.Lemmas.Lines
import Verif.Lemmas.Parallel
import Verif.Lemmas.Pem
import Verif.Lemmas.Predict
import Verif.Lemmas.Receipt
import Verif.Lemmas.RunTestFull
import Verif.Lemmas.RunTestKeys
import Verif.Lemmas.RunTestLoop
import Verif.Lemmas.Serial
import Verif.Lemmas.SortedIds
import Verif.Lemmas.Sums
import Verif.Lemmas.TestContents
import Verif.Lemmas.TestContentsLoop
import Verif.Lemmas.TestFalsify
import Verif.Lemmas.TestHistory
import Verif.Lemmas.TestPrefix
import Verif.Lemmas.TestVerify
import Verif.Lemmas.VerifyGroup
import Verif.Lemmas.VerifyReceipt
import Verif.Props.Accept
import Verif.Props.Arbitrary
import Verif.Props.Balance
import Verif.Props.Calendar
import Verif.Props.CashReg
import Verif.Props.CashRegHistory
import Verif.Props.CashRegMakes
import Verif.Props.ChunkSize
import Verif.Props.Cluster
import Verif.Props.Convert
import Verif.Props.Counter
import Verif.Props.CrashText
import Verif.Props.CsvText
import Verif.Props.DemoText
import Verif.Props.DemoTool
import Verif.Props.DepExport
import Verif.Props.DepParser
import Verif.Props.DepRules
import Verif.Props.EndToEnd
import Verif.Props.Export
import Verif.Props.ExportText
import Verif.Props.ExportValue
import Verif.Props.Falsify
import Verif.Props.Files
import Verif.Props.Fleet
import Verif.Props.Formats
import Verif.Props.GroupErrors
import Verif.Props.Gui
import Verif.Props.GuiAnswers
import Verif.Props.GuiKeys
import Verif.Props.GuiReceipt
import Verif.Props.GuiRun
import Verif.Props.GuiThreads
import Verif.Props.IntText
import Verif.Props.JsonStrings
import Verif.Props.KeyStore
import Verif.Props.KeyStoreIni
import Verif.Props.KeyTool
import Verif.Props.LineTools
import Verif.Props.Parallel
import Verif.Props.ParseText
import Verif.Props.Pool
import Verif.Props.Predict
import Verif.Props.Receipt
import Verif.Props.Refuse
import Verif.Props.Resume
import Verif.Props.RunTest
import Verif.Props.RunTestFull
import Verif.Props.SortedIds
import Verif.Props.SplitMerge
import Verif.Props.StateJson
import Verif.Props.StateTool
import Verif.Props.TestContents
import Verif.Props.TestFalsify
import Verif.Props.TestLinks
import Verif.Props.TestVerify
import Verif.Props.Unread
import Verif.Props.Url
import Verif.Props.UrlTools
import Verif.Props.VerifyCert
import Verif.Props.VerifyGroup
import Verif.Props.VerifyReceipt
import Verif.Props.VerifyTool
