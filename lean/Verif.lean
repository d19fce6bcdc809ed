import Verif.Model.Analysis
import Verif.Model.Bench
import Verif.Model.BenchPrep
import Verif.Model.Cardinality
import Verif.Model.Ceb
import Verif.Model.CheckMsg
import Verif.Model.Clauses
import Verif.Model.Collections
import Verif.Model.Conn
import Verif.Model.Connect
import Verif.Model.DbHints
import Verif.Model.DepGraph
import Verif.Model.Dict
import Verif.Model.DictTools
import Verif.Model.Dicts
import Verif.Model.DuckExec
import Verif.Model.DuckOpt
import Verif.Model.DynProg
import Verif.Model.Enumerate
import Verif.Model.EqHash
import Verif.Model.Executors
import Verif.Model.Explode
import Verif.Model.Expr
import Verif.Model.Fetch
import Verif.Model.Format
import Verif.Model.Frames
import Verif.Model.Grid
import Verif.Model.Hashable
import Verif.Model.HintQuery
import Verif.Model.Hints
import Verif.Model.Intermediates
import Verif.Model.JoinGraph
import Verif.Model.JoinParts
import Verif.Model.JoinTree
import Verif.Model.JsonText
import Verif.Model.Logging
import Verif.Model.MoveSub
import Verif.Model.Mysql
import Verif.Model.Namespace
import Verif.Model.Native
import Verif.Model.Nested
import Verif.Model.Num
import Verif.Model.NumOps
import Verif.Model.Nx
import Verif.Model.ParseExpr
import Verif.Model.ParseStmt
import Verif.Model.ParseText
import Verif.Model.PgConf
import Verif.Model.PgCtl
import Verif.Model.PgDates
import Verif.Model.PgDynProg
import Verif.Model.PgExplain
import Verif.Model.PgTools
import Verif.Model.PipeUse
import Verif.Model.Pipelines
import Verif.Model.PlanBag
import Verif.Model.PlanDiff
import Verif.Model.PlanJson
import Verif.Model.PlanRead
import Verif.Model.PlanText
import Verif.Model.Pred
import Verif.Model.Print
import Verif.Model.Proc
import Verif.Model.QTransform
import Verif.Model.QepsText
import Verif.Model.Query
import Verif.Model.QueryAst
import Verif.Model.QueryExec
import Verif.Model.QueryGen
import Verif.Model.QueryPlan
import Verif.Model.Randomized
import Verif.Model.Refs
import Verif.Model.RelMutate
import Verif.Model.Relalg
import Verif.Model.ReplacePred
import Verif.Model.Schema
import Verif.Model.Shifter
import Verif.Model.SimpleView
import Verif.Model.Stats
import Verif.Model.StatsIface
import Verif.Model.Tonic
import Verif.Model.TonicExplore
import Verif.Model.TrainData
import Verif.Model.Transform
import Verif.Model.Ues
import Verif.Model.UesStats
import Verif.Model.Validation
import Verif.Model.Version
import Verif.Model.Vis
import Verif.Model.Walk
import Verif.Model.WorkRead
import Verif.Model.WorkStore
import Verif.Model.Workload
import Verif.Props.Analysis
import Verif.Props.Bench
import Verif.Props.BenchPrep
import Verif.Props.Cardinality
import Verif.Props.Ceb
import Verif.Props.CheckMsg
import Verif.Props.Clauses
import Verif.Props.Collections
import Verif.Props.Conn
import Verif.Props.Connect
import Verif.Props.DbHints
import Verif.Props.DepGraph
import Verif.Props.DictTools
import Verif.Props.Dicts
import Verif.Props.DuckExec
import Verif.Props.DuckOpt
import Verif.Props.DynProg
import Verif.Props.Enumerate
import Verif.Props.EqHash
import Verif.Props.EquivClasses
import Verif.Props.Executors
import Verif.Props.Explode
import Verif.Props.Expr
import Verif.Props.Fetch
import Verif.Props.Format
import Verif.Props.Frames
import Verif.Props.Grid
import Verif.Props.Hashable
import Verif.Props.HintQuery
import Verif.Props.Hints
import Verif.Props.Intermediates
import Verif.Props.JoinGraph
import Verif.Props.JoinGraphIndex
import Verif.Props.JoinParts
import Verif.Props.JoinTree
import Verif.Props.JsonText
import Verif.Props.Logging
import Verif.Props.MoveSub
import Verif.Props.Mysql
import Verif.Props.Namespace
import Verif.Props.Native
import Verif.Props.Nested
import Verif.Props.Num
import Verif.Props.NumOps
import Verif.Props.ParseExpr
import Verif.Props.ParseStmt
import Verif.Props.ParseText
import Verif.Props.PgConf
import Verif.Props.PgCtl
import Verif.Props.PgDates
import Verif.Props.PgDynProg
import Verif.Props.PgExplain
import Verif.Props.PgSearch
import Verif.Props.PgTools
import Verif.Props.PipeUse
import Verif.Props.Pipelines
import Verif.Props.PlanBag
import Verif.Props.PlanDiff
import Verif.Props.PlanExtract
import Verif.Props.PlanJson
import Verif.Props.PlanOps
import Verif.Props.PlanRead
import Verif.Props.PlanText
import Verif.Props.Pred
import Verif.Props.Print
import Verif.Props.Proc
import Verif.Props.QTransform
import Verif.Props.QepsText
import Verif.Props.Query
import Verif.Props.QueryAst
import Verif.Props.QueryExec
import Verif.Props.QueryGen
import Verif.Props.QueryPlan
import Verif.Props.QueryPreds
import Verif.Props.Randomized
import Verif.Props.Refs
import Verif.Props.RelMutate
import Verif.Props.Relalg
import Verif.Props.Rename
import Verif.Props.ReplacePred
import Verif.Props.Schema
import Verif.Props.Shifter
import Verif.Props.SimpleView
import Verif.Props.Stats
import Verif.Props.StatsIface
import Verif.Props.Tonic
import Verif.Props.TonicExplore
import Verif.Props.TrainData
import Verif.Props.Training
import Verif.Props.TransformPreds
import Verif.Props.Ues
import Verif.Props.UesBounds
import Verif.Props.UesFreq
import Verif.Props.UesPolicy
import Verif.Props.UesStats
import Verif.Props.Validation
import Verif.Props.Version
import Verif.Props.Vis
import Verif.Props.Walk
import Verif.Props.WorkRead
import Verif.Props.WorkStore
import Verif.Props.Workload
