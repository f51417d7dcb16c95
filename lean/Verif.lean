import Verif.Model.Stream
import Verif.Model.Ops
import Verif.Lemmas.Dict
import Verif.Model.Red
import Verif.Props.C01_Staging
import Verif.Props.C03_Head
import Verif.Props.C04_Tail
import Verif.Props.C02_Isolation
import Verif.Props.C05_Reverse
import Verif.Props.C06_Sort
import Verif.Props.C07_Unique
import Verif.Props.C08_Window
import Verif.Props.C11_Red
import Verif.Model.PyVal
import Verif.Props.C14_Expand
import Verif.Model.SetOps
import Verif.Props.C15_SetOps
import Verif.Props.C16_Join
import Verif.Props.C18_Case
import Verif.Props.C19_Args
import Verif.Props.C20_Gen
import Verif.Props.C21_FlushOnce
import Verif.Lemmas.Vars
import Verif.Props.C25_Scopes
import Verif.Props.C22_Lifecycle
import Verif.Props.C23_OpList
import Verif.Props.C24_Gather
import Verif.Props.C27_Workspace
import Verif.Model.Lexer
import Verif.Spec.Words
import Verif.Props.C30_Words
import Verif.Spec.Exprs
import Verif.Props.C32_Exprs
import Verif.Model.Parser
import Verif.Spec.Syntax
import Verif.Lemmas.ParserFuel
import Verif.Lemmas.ParserText
import Verif.Lemmas.ParserRT
import Verif.Props.C33_Parser
import Verif.Model.FArgs
import Verif.Props.C35_FArgs
import Verif.Model.Args
import Verif.Spec.ArgSpec
import Verif.Props.C37_Args
import Verif.Props.C39_PipelineArgs
import Verif.Model.WsLock
import Verif.Props.C40_WsLock
import Verif.Model.Pickle
import Verif.Spec.Pickle
import Verif.Props.C42_Pickle
import Verif.Props.C43_Store
import Verif.Model.DirStack
import Verif.Props.C44_DirStack
import Verif.Model.Jobs
import Verif.Props.C45_Jobs
import Verif.Model.History
import Verif.Props.C47_History
import Verif.Model.Ls
import Verif.Props.C48_Ls
import Verif.Model.Read
import Verif.Props.C49_Read
import Verif.Model.Version
import Verif.Props.C50_Version
import Verif.Props.C51_Reservoir
import Verif.Props.C52_Adjacent
import Verif.Model.Storage
import Verif.Spec.Storage
import Verif.Lemmas.Storage
import Verif.Lemmas.StorageRun
import Verif.Lemmas.StorageUp
import Verif.Props.C54_UpgradeCrash
import Verif.Props.C53_Upgrade
import Verif.Props.C55_UpgradeResume
import Verif.Model.Fork
import Verif.Props.C56_Fork
import Verif.Model.Bash
import Verif.Props.C57_Bash
import Verif.Model.Write
import Verif.Props.C58_Write
import Verif.Model.Main
import Verif.Props.C59_Main
import Verif.Model.CliArgs
import Verif.Props.C61_CliArgs
import Verif.Model.Resolve
import Verif.Props.C62_Resolve
import Verif.Props.C63_Exec
import Verif.Model.WsDisk
import Verif.Spec.WsDisk
import Verif.Props.C64_Start
import Verif.Props.C65_NewDelete
import Verif.Props.C66_OpenClose
import Verif.Model.Tab
import Verif.Spec.Tab
import Verif.Props.C67_Tab
import Verif.Model.Filenames
import Verif.Spec.Filenames
import Verif.Props.C68_Filenames
import Verif.Model.Sql
import Verif.Spec.Sql
import Verif.Props.C69_Sql
import Verif.Model.ShellCmd
import Verif.Spec.Shell
import Verif.Props.C70_ShellCmd
import Verif.Model.Api
import Verif.Spec.Api
import Verif.Lemmas.Api
import Verif.Lemmas.ApiCalls
import Verif.Props.C71_Api
import Verif.Model.Exec
import Verif.Spec.Exec
import Verif.Lemmas.Exec
import Verif.Lemmas.ExecMore
import Verif.Lemmas.ExecArgs
import Verif.Lemmas.ExecStages
import Verif.Props.C72_Command
import Verif.Model.Help
import Verif.Spec.Help
import Verif.Lemmas.Help
import Verif.Lemmas.HelpBlocks
import Verif.Lemmas.HelpParas
import Verif.Lemmas.HelpFormat
import Verif.Props.C73_Help
import Verif.Model.Timer
import Verif.Props.C74_Timer
import Verif.Model.EnvVals
import Verif.Props.C75_EnvVals
import Verif.Model.EnvOp
import Verif.Props.C76_Start
import Verif.Props.C77_Env
import Verif.Props.C78_Import
import Verif.Model.Remote
import Verif.Props.C79_Remote
import Verif.Model.Rerun
import Verif.Spec.Rerun
import Verif.Lemmas.Rerun
import Verif.Props.C80_Rerun
import Verif.Model.FileObj
import Verif.Props.C81_File
import Verif.Model.Ps
import Verif.Props.C82_Ps
import Verif.Model.Edit
import Verif.Props.C83_Edit
import Verif.Model.Json
import Verif.Props.C84_Json
import Verif.Model.Reduce
import Verif.Spec.Reduce
import Verif.Lemmas.Reduce
import Verif.Props.C85_Reduce
import Verif.Model.Cast
import Verif.Props.C86_Cast
import Verif.Model.Color
import Verif.Spec.Terminal
import Verif.Props.C87_Color
import Verif.Props.C88_Prompt
import Verif.Props.C89_Scheme
import Verif.Model.Cluster
import Verif.Props.C90_Cluster
import Verif.Model.WsOp
import Verif.Props.C91_WsOp
import Verif.Model.Locations
import Verif.Props.C92_Locations
import Verif.Model.Trace
import Verif.Props.C93_Trace
import Verif.Model.ExecNest
import Verif.Spec.ExecNest
import Verif.Lemmas.NestOps
import Verif.Lemmas.NestArgs
import Verif.Lemmas.NestRun
import Verif.Props.C94_Nested
import Verif.Model.Objects
import Verif.Spec.Objects
import Verif.Props.C95_Objects
import Verif.Model.Session
import Verif.Spec.Session
import Verif.Props.C96_Session
import Verif.Model.HelpTopics
import Verif.Model.HelpTexts
import Verif.Lemmas.HelpCheck
import Verif.Lemmas.HelpTexts
import Verif.Props.C97_HelpTopics
import Verif.Model.Render
import Verif.Props.C98_Render
import Verif.Model.Scheme
import Verif.Props.C99_Scheme
