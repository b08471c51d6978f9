import Verif.Props.ColumnRead
import Verif.Props.ColumnWrite
import Verif.Props.Isolation
import Verif.Props.TypesExact
import Verif.Props.ColumnQuery
import Verif.Props.Table
import Verif.Props.TableOps
import Verif.Props.Reindex
import Verif.Props.Join
import Verif.Props.Lookup
import Verif.Props.Filter
import Verif.Props.Sort
import Verif.Props.Dates
import Verif.Props.Misc
import Verif.Props.GroupBy
import Verif.Props.Stats
import Verif.Props.Refcount
import Verif.Props.SaveLoad
import Verif.Props.Csv
import Verif.Props.Import
import Verif.Props.ImportTyped
import Verif.Props.ImportUniform
import Verif.Model.ExportTyped
import Verif.Props.ExportExact
import Verif.Props.ExportDefault
import Verif.Props.ExportTyped
import Verif.Props.InferInt
import Verif.Props.InferDate
import Verif.Props.Rank
import Verif.Props.TypedPage
import Verif.Props.InferFloat
import Verif.Props.FloatExact
import Verif.Props.Reshape
import Verif.Props.PivotTranspose
import Verif.Props.Pivot
import Verif.Props.Diff
import Verif.Props.Match
import Verif.Props.Codec
import Verif.Props.Repaginate
import Verif.Props.Nearest
import Verif.Props.Select
import Verif.Model.Pickle
import Verif.Model.Npy
import Verif.Props.Pickle
import Verif.Props.Npy
import Verif.Props.NpyExact
import Verif.Model.TableObj
import Verif.Props.TableObj
import Verif.Model.Export
import Verif.Props.Export
import Verif.Model.JsonTable
import Verif.Props.JsonTable
import Verif.Props.Intercept
import Verif.Model.Impute
import Verif.Props.Impute
import Verif.Props.ImputeExact
import Verif.Model.TypedCol
import Verif.Props.TypedCol
import Verif.Props.TypedExact
import Verif.Model.MergeKeys
import Verif.Props.MergeKeys
import Verif.Model.TextSort
import Verif.Props.TextSort
import Verif.Model.ExprFilter
import Verif.Props.ExprFilter
import Verif.Props.TypedOk
import Verif.Model.Guess
import Verif.Props.Guess
import Verif.Model.DateText
import Verif.Props.DateText
import Verif.Props.DateCol
import Verif.Props.IntDates
import Verif.Model.Sheet
import Verif.Props.Sheet
import Verif.Model.Cast
import Verif.Props.InferTime
import Verif.Props.Double
import Verif.Props.Cast
import Verif.Props.CastText
import Verif.Model.StatsAny
import Verif.Props.StatsAny
import Verif.Model.Preview
import Verif.Props.Preview
import Verif.Model.Display
import Verif.Props.Display
import Verif.Model.Encoded
import Verif.Props.Encoded
import Verif.Props.EncodedCr
import Verif.Props.Utf8
import Verif.Props.Utf8Exact
import Verif.Model.Tracker
import Verif.Props.Tracker
import Verif.Model.DateRange
import Verif.Props.DateRange
import Verif.Model.Sql
import Verif.Props.Sql
import Verif.Props.SqlExact
import Verif.Model.SortDates
import Verif.Props.SortDates
import Verif.Props.SortDatesExact
import Verif.Model.Hdf5
import Verif.Props.Hdf5
import Verif.Model.Replace
import Verif.Props.Replace
import Verif.Model.Unique
import Verif.Props.Unique
import Verif.Model.Pandas
import Verif.Props.Pandas
import Verif.Model.SheetWrite
import Verif.Props.SheetWrite
import Verif.Model.NdSlice
import Verif.Props.NdSlice
import Verif.Props.NdSliceExact
import Verif.Model.Procs
import Verif.Props.Procs
import Verif.Props.ProcsExact
import Verif.Props.Laws
import Verif.Props.JoinLaws
import Verif.Props.GroupLaws
import Verif.Props.StrideExact
import Verif.Props.Exact
import Verif.Props.Exact2
import Verif.Props.Exact3
import Verif.Props.Exact4
import Verif.Props.GroupCut
import Verif.Model.FilterIn
import Verif.Props.FilterIn
import Verif.Props.SelectExact
import Verif.Props.SelectRows
import Verif.Props.LookupExact
import Verif.Props.ListSim
import Verif.Props.ListSimExact
import Verif.Props.StackLaws
import Verif.Props.ApiArgs
import Verif.Props.GroupOrder
import Verif.Props.GroupSorted
import Verif.Props.InterceptExact
import Verif.Props.DiffExact
import Verif.Props.CsvExact
import Verif.Props.PivotTransposeExact
import Verif.Props.TableObjExact
import Verif.Model.SheetPreview
import Verif.Props.SheetPreview
import Verif.Model.Types
import Verif.Props.Types
import Verif.Props.Exact5
import Verif.Props.Exact6
import Verif.Model.TextEscape
import Verif.Props.TextEscape
import Verif.Props.TextEscapeOpen
import Verif.Props.Exact7
import Verif.Props.ApiArgs2
import Verif.Props.CleanLaws
import Verif.Model.ColumnStats
import Verif.Props.ColumnStats
import Verif.Props.TableSim
import Verif.Props.TableShape
import Verif.Props.PivotRel
import Verif.Props.PageLayout
import Verif.Props.CarryRel
import Verif.Props.UnpivotRel
import Verif.Props.LookupRel
import Verif.Props.MergeRel
import Verif.Props.LookupJoin
import Verif.Props.UnpivotLaws
import Verif.Props.LeftJoinLaws
import Verif.Props.GroupJoinBack
import Verif.Props.JoinSize
import Verif.Props.Script
import Verif.Props.SortEffect
import Verif.Props.Exact8
import Verif.Props.ImportScript
import Verif.Props.BuildGroup
import Verif.Props.AddedCols
import Verif.Props.Readers
import Verif.Props.PivotExact
import Verif.Model.Bytes
import Verif.Props.Bytes
import Verif.Model.GuessTypes
import Verif.Props.GuessTypes
import Verif.Props.ImportMissing
import Verif.Model.Html
import Verif.Props.Html
import Verif.Props.CastExact
import Verif.Props.RankExact
import Verif.Props.DateBounds
import Verif.Props.PreviewExact
import Verif.Props.StatsExact
import Verif.Model.SaveCrash
import Verif.Props.SaveCrash
import Verif.Props.Sessions
import Verif.Props.WidthExact
import Verif.Props.MergeExact
import Verif.Props.SheetExact
import Verif.Props.GuessExact
import Verif.Props.StatsOrder
import Verif.Props.FilesToFile
import Verif.Props.TypedScript
import Verif.Props.PageAgree
import Verif.Props.AgreeScript
import Verif.Props.SkipExact
import Verif.Props.ExportAgree
import Verif.Props.NearestRow
import Verif.Props.NearestRel
import Verif.Model.NearestSort
import Verif.Props.NearestOrder
import Verif.Props.NearestKept
