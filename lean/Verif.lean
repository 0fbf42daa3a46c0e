import Verif.Props.Encoding
import Verif.Props.Values
import Verif.Props.Config
import Verif.Props.Sync
import Verif.Props.Uapi
import Verif.Props.Show
import Verif.Props.Dump
import Verif.Props.Showconf
import Verif.Props.Netlink
import Verif.Props.NetlinkGet
import Verif.Props.Keys
import Verif.Props.Keys32
import Verif.Props.Main
import Verif.Props.IpcList
import Verif.Props.Heap
import Verif.Props.Quick
import Verif.Props.QuickRun
import Verif.Props.QuickSave
import Verif.Props.QuickSteps
import Verif.Props.QuickRoutes
import Verif.Props.QuickSaved
import Verif.Props.QuickOthers
import Verif.Props.QuickFirewall
import Verif.Props.EndToEnd
import Verif.Props.NetlinkOpen
import Verif.Props.QuickMain
import Verif.Props.Openbsd
import Verif.Props.Freebsd
import Verif.Props.EmbKeys
import Verif.Props.EmbIpc
import Verif.Props.Windows
import Verif.Props.WinFind
import Verif.Props.WinLibc
import Verif.Props.Highlight
import Verif.Props.HighlightParts
import Verif.Props.HighlightWg
import Verif.Props.BsdRoutes
import Verif.Props.BsdUp
import Verif.Props.BsdNets
import Verif.Props.BsdSave
import Verif.Props.BsdService
import Verif.Props.BsdMain
import Verif.Props.AndroidParse
import Verif.Props.AndroidUsers
import Verif.Props.AndroidDown
import Verif.Props.AndroidUp
import Verif.Props.AndroidShell
import Verif.Props.AndroidMain
import Verif.Props.JsKeys
import Verif.Props.WgJson
import Verif.Props.Reresolve
import Verif.Props.Punch
import Verif.Props.PunchClient
import Verif.Props.Demo
import Verif.Props.ExtractHandshakes
import Verif.Props.Completion
import Verif.Props.ExtractKeys
import Verif.Props.Systemd
import Verif.Props.CompletionQuick
import Verif.Props.Hatchet
import Verif.Props.Sticky
import Verif.Props.DemoClient
import Verif.Props.DemoScript
