import Verif.Base
import Verif.Num
import Verif.Flake.Model
import Verif.Flake.Lemmas
import Verif.Flake.Spec
import Verif.Flake.ConcLemmas
import Verif.Flake.TimeLemmas
import Verif.Flake.Props
import Verif.Xsql.Model
import Verif.Xsql.Spec
import Verif.Xsql.TokLemmas
import Verif.Xsql.RepLemmas
import Verif.Xsql.AddLemmas
import Verif.Xsql.RefLemmas
import Verif.Xsql.CallLemmas
import Verif.Xsql.DocLemmas
import Verif.Xsql.ClosedLemmas
import Verif.Xsql.Props
import Verif.Xsql.Props2
import Verif.Xsql.Props3
import Verif.Xsql.World
import Verif.Xsql.WorldSpec
import Verif.Xsql.WorldLemmas
import Verif.Xsql.SimLemmas
import Verif.Xsql.OrderLemmas
import Verif.Xsql.WorldProps
import Verif.Xsql.WorldProps2
import Verif.Xsql.WorldProps3
import Verif.Util
import Verif.Sql.Rows
import Verif.Sql.Exec
import Verif.Sql.ExecProps
import Verif.Query.Params
import Verif.Query.ParamsProps
import Verif.Query.NameProps
import Verif.Query.Model
import Verif.Query.QueryProps
import Verif.Query.Cursor
import Verif.Types.Id
import Verif.Types.Spec
import Verif.Types.IdLemmas
import Verif.Types.IdProps
import Verif.Types.IdArray
import Verif.Types.IdArrayProps
import Verif.Types.Columns
import Verif.Types.ColumnProps
import Verif.Types.Maps
import Verif.Types.JsonLite
import Verif.Types.MapProps
import Verif.Types.Errors
import Verif.Types.Time
import Verif.Types.TimeSpec
import Verif.Types.TimeLemmas
import Verif.Types.TimeProps
import Verif.Types.Merge
import Verif.Prov.Model
import Verif.Prov.Props
import Verif.Prov.KeepAlive
import Verif.Migrate.Model
import Verif.Notify.Model
import Verif.Conn.Props
import Verif.Schema.ListProps
import Verif.Schema.KeyProps
import Verif.Schema.DiscoverProps
import Verif.Schema.DiscoverMore
import Verif.Schema.Terminate
import Verif.Schema.ViewProps
import Verif.Schema.InfoProps
import Verif.Gen.Types
import Verif.Gen.Props
import Verif.Types.FloatProps2
import Verif.Schema.Tag
import Verif.Gen.Bind
import Verif.Cli.Model
import Verif.Cli.Print
import Verif.Cli.Generate
import Verif.Catalog.Text
import Verif.Catalog.Seen
import Verif.Catalog.SeenLemmas
import Verif.Catalog.Pg
import Verif.Catalog.PgSpec
import Verif.Catalog.PgLemmas
import Verif.Catalog.PgTables
import Verif.Catalog.PgProps
import Verif.Catalog.PgDemo
import Verif.Catalog.PgViews
import Verif.Catalog.PgKeys
import Verif.Catalog.Ms
import Verif.Catalog.MsSpec
import Verif.Catalog.MsLemmas
import Verif.Catalog.MsProps
import Verif.Catalog.MsKeys
import Verif.Catalog.MsViews
import Verif.Catalog.MsDemo
import Verif.Xsql.MemProps
import Verif.Xsql.MemCases
import Verif.Xsql.ConcProps
import Verif.Catalog.PgDepsDemo
import Verif.Catalog.MsDepsDemo
import Verif.Schema.LeakBound
import Verif.Gen.Tmpl
import Verif.Gen.TmplText
import Verif.Gen.Text
import Verif.Gen.GoLex
import Verif.Gen.TextSpec
import Verif.Gen.TextLex
import Verif.Gen.TextProps
import Verif.Gen.Exact58
import Verif.Schema.DiscoverHistory
import Verif.Prov.Open
import Verif.Prov.Ids
import Verif.Cli.Main
import Verif.Gen.Fail75
import Verif.Types.IdAlias
import Verif.Types.ScanExact
import Verif.Prov.Exact
import Verif.Query.Exact
import Verif.Notify.Exact
import Verif.Xsql.PageExact
import Verif.Cli.Exact
import Verif.Schema.TornExact
import Verif.Types.GoJsonStr
import Verif.Types.GoJson
import Verif.Types.GoJsonParse
import Verif.Types.GoJsonProps
import Verif.Types.ScanHeap
import Verif.Types.ScanHeapMaps
import Verif.Xsql.CacheExact
import Verif.Gen.Exact74
import Verif.Flake.Program
import Verif.Notify.Listener
import Verif.Xsql.Default
import Verif.Query.Heap
import Verif.Schema.Crash
import Verif.Types.GoJsonIndent
import Verif.Cli.Json
import Verif.Catalog.PgExact
import Verif.Catalog.PgKeysExact
import Verif.Catalog.MsIndexExact
import Verif.Catalog.MsViewsExact
import Verif.Types.EnumArray
import Verif.Gen.Read
import Verif.Gen.WriteBack
import Verif.Gen.ReadList
import Verif.Gen.SaveLoad
import Verif.Gen.SaveLoadSql
import Verif.Types.Digits15
import Verif.Gen.Decimal
import Verif.Xsql.SetProps
import Verif.Gen.ModifyText
import Verif.Gen.Modify
import Verif.Gen.ModifyModel
import Verif.Gen.Real
import Verif.Gen.TextArray
import Verif.Gen.PagesText
import Verif.Gen.Pages
import Verif.Gen.ListText
import Verif.Gen.Endpoint
import Verif.Query.CursorJson
import Verif.Query.CursorPages
import Verif.Query.Changing
import Verif.Gen.Keyset
import Verif.Gen.KeysetPages
import Verif.Gen.InList
import Verif.Gen.InRows
import Verif.Gen.CreateText
import Verif.Gen.Create
import Verif.Gen.TakeText
import Verif.Gen.Take
import Verif.Gen.ClaimText
import Verif.Gen.Claim
import Verif.Gen.Race
