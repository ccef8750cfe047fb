import Verif.Model.Template
import Verif.Props.Allow
import Verif.Props.AllowBif
import Verif.Props.AllowName
import Verif.Props.Amount
import Verif.Props.Answer
import Verif.Props.Args
import Verif.Props.Blocks
import Verif.Props.Bridge
import Verif.Props.Browser
import Verif.Props.Budget
import Verif.Props.Bytes
import Verif.Props.Cache
import Verif.Props.CacheFs
import Verif.Props.CacheOff
import Verif.Props.CacheRm
import Verif.Props.Cause
import Verif.Props.Clean
import Verif.Props.CleanUse
import Verif.Props.Client
import Verif.Props.ClientUse
import Verif.Props.Combine
import Verif.Props.Comments
import Verif.Props.Compose
import Verif.Props.Cond
import Verif.Props.Cost
import Verif.Props.Count
import Verif.Props.Data
import Verif.Props.Dead
import Verif.Props.Debug
import Verif.Props.Defs
import Verif.Props.Depends
import Verif.Props.Depth
import Verif.Props.Ends
import Verif.Props.ErrorText
import Verif.Props.Errors
import Verif.Props.Escape
import Verif.Props.EvalBif
import Verif.Props.Exchange
import Verif.Props.Exit
import Verif.Props.FastCgi
import Verif.Props.Faults
import Verif.Props.Fetch
import Verif.Props.FetchElem
import Verif.Props.FileNames
import Verif.Props.Files
import Verif.Props.Filter
import Verif.Props.FlagUse
import Verif.Props.Flags
import Verif.Props.Frame
import Verif.Props.Halt
import Verif.Props.Holes
import Verif.Props.HolesAge
import Verif.Props.InCache
import Verif.Props.Include
import Verif.Props.Inject
import Verif.Props.Invariants
import Verif.Props.Invisible
import Verif.Props.Join
import Verif.Props.Lang
import Verif.Props.LangUse
import Verif.Props.Laws
import Verif.Props.Loop
import Verif.Props.Malformed
import Verif.Props.Markup
import Verif.Props.Merge
import Verif.Props.Messages
import Verif.Props.Missing
import Verif.Props.Moveto
import Verif.Props.Names
import Verif.Props.Nest
import Verif.Props.Obj
import Verif.Props.ObjData
import Verif.Props.Only
import Verif.Props.Options
import Verif.Props.Output
import Verif.Props.Page
import Verif.Props.Panic
import Verif.Props.Php
import Verif.Props.PhpCall
import Verif.Props.Place
import Verif.Props.Pointer
import Verif.Props.Printed
import Verif.Props.Python
import Verif.Props.Quiet
import Verif.Props.Reads
import Verif.Props.Redirect
import Verif.Props.Rename
import Verif.Props.Render
import Verif.Props.Safe
import Verif.Props.ScanCost
import Verif.Props.Schema
import Verif.Props.Scope
import Verif.Props.Second
import Verif.Props.Setting
import Verif.Props.Shown
import Verif.Props.Simple
import Verif.Props.Steady
import Verif.Props.Text
import Verif.Props.Tune
import Verif.Props.Uncomment
import Verif.Props.Unseen
import Verif.Props.Upline
import Verif.Props.Var
import Verif.Props.Venv
import Verif.Props.Weave
import Verif.Props.Where
import Verif.Props.Written
