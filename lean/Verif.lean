import Verif.Props.Tile
import Verif.Props.TileSet
import Verif.Props.Win
import Verif.Props.Waiting
import Verif.Props.Category
import Verif.Props.Notation
import Verif.Props.Wall
import Verif.Props.Meld
import Verif.Props.State
import Verif.Props.Record
import Verif.Props.Command
import Verif.Props.Executor
import Verif.Model.Builder
import Verif.Model.Translate
import Verif.Spec.Translate
import Verif.Proofs.Builder
import Verif.Proofs.Translate
import Verif.Proofs.TranslateMove
import Verif.Proofs.TranslateQuiet
import Verif.Proofs.TranslateDeal
import Verif.Proofs.TranslateHand
import Verif.Proofs.TranslateDiscard
import Verif.Proofs.TranslateMeld
import Verif.Proofs.TranslateScore
import Verif.Proofs.TranslateScore2
import Verif.Proofs.Process
import Verif.Proofs.Consistent
import Verif.Props.Translate
import Verif.Model.Checker
import Verif.Spec.Checker
import Verif.Spec.Unicode
import Verif.Proofs.Checker
import Verif.Proofs.CheckerCount
import Verif.Proofs.CheckerReport
import Verif.Proofs.PlainTiles
import Verif.Proofs.CheckerAnalysis
import Verif.Props.Checker
import Verif.Spec.Report
import Verif.Proofs.CheckerLoop
import Verif.Proofs.CheckerOutcome
import Verif.Proofs.CheckerPoints
import Verif.Props.Report
import Verif.Model.WinRate
import Verif.Spec.WinRate
import Verif.Proofs.WinRate
import Verif.Props.WinRate
import Verif.Props.TileGroups
import Verif.Model.Dispatch
import Verif.Spec.Dispatch
import Verif.Proofs.Dispatch
import Verif.Props.Dispatch
import Verif.Model.Paifu
import Verif.Spec.Paifu
import Verif.Proofs.Paifu
import Verif.Props.Paifu
import Verif.Spec.Flatten
import Verif.Proofs.Flatten
import Verif.Props.Flatten
import Verif.Model.Frame
import Verif.Spec.Frame
import Verif.Proofs.Fine
import Verif.Proofs.Frame
import Verif.Props.Frame
import Verif.Proofs.EventDf
import Verif.Props.EventDf
import Verif.Model.Raw
import Verif.Props.Raw
import Verif.Model.Frontend
import Verif.Spec.Frontend
import Verif.Proofs.Frontend
import Verif.Props.Frontend
import Verif.Spec.FairGame
import Verif.Props.FairGame
import Verif.Model.Describe
import Verif.Props.Describe
import Verif.Spec.Play
import Verif.Props.Play
import Verif.Props.Pairs
import Verif.Spec.Effects
import Verif.Proofs.Effects
import Verif.Spec.Tags
import Verif.Proofs.Tags
import Verif.Proofs.Effects2
import Verif.Props.Tags
import Verif.Props.Effects
import Verif.Spec.Values
import Verif.Proofs.Values
import Verif.Proofs.Values2
import Verif.Props.Values
import Verif.Props.Header
import Verif.Props.Results
import Verif.Spec.Number
import Verif.Proofs.Number
import Verif.Proofs.NumberText
import Verif.Props.Number
import Verif.Spec.Strict
import Verif.Proofs.Strict
import Verif.Props.Strict
import Verif.Spec.Vocabulary
import Verif.Proofs.Vocabulary
import Verif.Props.Vocabulary
import Verif.Model.StateCsv
import Verif.Spec.StateCsv
import Verif.Proofs.StateCsv
import Verif.Props.StateCsv
import Verif.Spec.Open
import Verif.Proofs.TranslateOpen
import Verif.Props.Open
import Verif.Py.Unquote
import Verif.Spec.Unquote
import Verif.Proofs.Unquote
import Verif.Proofs.Utf8
import Verif.Props.Names
import Verif.Py.Html
import Verif.Model.PageText
import Verif.Spec.Html
import Verif.Spec.Page
import Verif.Proofs.Html
import Verif.Proofs.PageTags
import Verif.Proofs.PageText
import Verif.Proofs.PageWhole
import Verif.Proofs.PageRead
import Verif.Proofs.PageFind
import Verif.Proofs.PageNumber
import Verif.Props.Html
import Verif.Py.Float
import Verif.Spec.Float
import Verif.Proofs.Float
import Verif.Proofs.WrongRate
import Verif.Model.FloatNumber
import Verif.Proofs.FloatNumber
import Verif.Props.Float
import Verif.Spec.WholeRow
import Verif.Proofs.WholeRow
import Verif.Props.WholeRow
import Verif.Props.Csv
import Verif.Props.Choices
import Verif.Props.Opened
import Verif.Props.Rejoin
import Verif.Props.WinHand
import Verif.Props.Xml
import Verif.Props.Heap
import Verif.Props.File
import Verif.Props.Replay
import Verif.Props.Regular
import Verif.Spec.Pages
import Verif.Proofs.Pages
import Verif.Props.Pages
import Verif.Props.RedRow
import Verif.Model.SetStore
import Verif.Spec.SetStore
import Verif.Proofs.SetStore
import Verif.Proofs.SetStoreBrute
import Verif.Proofs.SetStorePm
import Verif.Proofs.SetStoreHeur
import Verif.Props.SetStore
import Verif.Model.SetOrder
import Verif.Spec.SetOrder
import Verif.Props.SetOrder
import Verif.Model.DictCalls
import Verif.Props.DictCalls
import Verif.Props.BuilderShared
import Verif.Props.SetDefault
import Verif.Props.OpenCategory
import Verif.Model.DictStore
import Verif.Spec.DictStore
import Verif.Proofs.DictStore
import Verif.Proofs.DictExec
import Verif.Props.DictStore
import Verif.Proofs.CompleteCheck
import Verif.Model.WinRateFloat
import Verif.Proofs.Near
import Verif.Proofs.WinRateFloat
import Verif.Props.WinRateFloat
import Verif.Model.Demo
import Verif.Proofs.Demo
import Verif.Props.Demo
import Verif.Conform.Check
import Verif.Conform.RecordA
import Verif.Conform.RecordB
import Verif.Conform.RecordC
import Verif.Conform.RecordD
import Verif.Conform.RecordE
import Verif.Conform.RecordF
import Verif.Conform.Records
import Verif.Conform.Algo
import Verif.Conform.AlgoUseful
import Verif.Conform.AlgoPattern
import Verif.Conform.Tests
