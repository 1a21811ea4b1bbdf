import Verif.Props.Ring
import Verif.Props.Esc
import Verif.Props.Telnet
import Verif.Props.Log
import Verif.Props.Backoff
import Verif.Props.Links
import Verif.Props.Mode
import Verif.Props.Flow
import Verif.Props.Quiet
import Verif.Props.Reset
import Verif.Props.Crash
import Verif.Props.Order
import Verif.Props.CStr
import Verif.Props.Notice
import Verif.Props.Lex
import Verif.Props.File
import Verif.Props.Proto
import Verif.Props.Time
import Verif.Props.List
import Verif.Props.Command
import Verif.Props.Name
import Verif.Props.Timer
import Verif.Props.Poll
import Verif.Props.Format
import Verif.Props.Opts
import Verif.Props.Ipmi
import Verif.Props.TestCon
import Verif.Props.Env
import Verif.Props.Stamp
import Verif.Props.Device
import Verif.Props.Syslog
import Verif.Spec.Conf
import Verif.Spec.ConfCon
import Verif.Model.Conf
import Verif.Lemma.Conf
import Verif.Lemma.ConfSet
import Verif.Lemma.ConfFrame
import Verif.Lemma.ConfText
import Verif.Lemma.ConfCon
import Verif.Props.Conf
import Verif.Props.ConfCon
import Verif.Spec.HostEnt
import Verif.Model.HostEnt
import Verif.Lemma.HostEnt
import Verif.Props.HostEnt
import Verif.Spec.Inevent
import Verif.Model.Inevent
import Verif.Lemma.Inevent
import Verif.Props.Inevent
import Verif.Spec.Locks
import Verif.Model.Locks
import Verif.Lemma.Locks
import Verif.Props.Locks
import Verif.Spec.Mux
import Verif.Model.Mux
import Verif.Props.Mux
import Verif.Spec.LogMsg
import Verif.Model.LogMsg
import Verif.Props.LogMsg
import Verif.Spec.Startup
import Verif.Model.Startup
import Verif.Props.Startup
import Verif.Spec.ClientArgs
import Verif.Model.ClientArgs
import Verif.Props.ClientArgs
import Verif.Spec.Tty
import Verif.Model.Tty
import Verif.Props.Tty
import Verif.Spec.ClientOut
import Verif.Model.ClientOut
import Verif.Lemma.ClientOut
import Verif.Props.ClientOut
import Verif.Props.ClientHelp
import Verif.Props.ClientExit
import Verif.Spec.Serve
import Verif.Model.Serve
import Verif.Lemma.Serve
import Verif.Lemma.Talk
import Verif.Lemma.TalkAns
import Verif.Lemma.TalkRun
import Verif.Props.Talk
import Verif.Spec.Getopt
import Verif.Model.Getopt
import Verif.Lemma.Getopt
import Verif.Spec.ServerArgs
import Verif.Model.ServerArgs
import Verif.Lemma.ServerArgs
import Verif.Lemma.ConfKeys
import Verif.Props.ServerArgs
import Verif.Spec.LogFiles
import Verif.Model.LogFiles
import Verif.Lemma.LogFiles
import Verif.Props.LogFiles
import Verif.Spec.Mutexes
import Verif.Model.Mutexes
import Verif.Lemma.Mutexes
import Verif.Props.Mutexes
import Verif.Spec.Races
import Verif.Model.Races
import Verif.Lemma.Races
import Verif.Lemma.RacesSys
import Verif.Lemma.RacesDone
import Verif.Props.Races
import Verif.Spec.Input
import Verif.Lemma.WorldInput
import Verif.Lemma.WorldInputRun
import Verif.Props.Input
import Verif.Spec.LogBook
import Verif.Lemma.WorldLogLink
import Verif.Lemma.WorldLogBook
import Verif.Lemma.WorldLogText
import Verif.Props.LogBook
import Verif.Spec.Screen
import Verif.Lemma.WorldScreen
import Verif.Props.Screen
import Verif.Spec.EndToEnd
import Verif.Lemma.EndToEnd
import Verif.Props.EndToEnd
import Verif.Spec.Awake
import Verif.Lemma.WorldAwake
import Verif.Props.Awake
import Verif.Model.Whole
import Verif.Lemma.WorldRc
import Verif.Lemma.Whole
import Verif.Props.Whole
import Verif.Model.Procs
import Verif.Spec.Procs
import Verif.Lemma.Procs
import Verif.Props.Procs
import Verif.Spec.TelInput
import Verif.Lemma.TelInput
import Verif.Props.TelInput
import Verif.Spec.TelOutput
import Verif.Lemma.WorldIac
import Verif.Lemma.TelOutput
import Verif.Props.TelOutput
import Verif.Model.Disk
import Verif.Spec.Disk
import Verif.Lemma.Disk
import Verif.Lemma.DiskNames
import Verif.Props.Disk
import Verif.Spec.NoticeText
import Verif.Model.NoticeText
import Verif.Lemma.NoticeText
import Verif.Lemma.NoticeUser
import Verif.Props.NoticeText
import Verif.Spec.Replay
import Verif.Model.ReplayHist
import Verif.Lemma.WorldHist
import Verif.Lemma.ReplayHist
import Verif.Lemma.ReplayRun
import Verif.Props.Replay
import Verif.Spec.Rotate
import Verif.Lemma.Rotate
import Verif.Props.Rotate
import Verif.Model.Child
import Verif.Spec.Child
import Verif.Lemma.Child
import Verif.Props.Child
import Verif.Model.Pool
import Verif.Spec.Pool
import Verif.Lemma.Pool
import Verif.Lemma.PoolSys
import Verif.Props.Pool
import Verif.Model.Opening
import Verif.Spec.Opening
import Verif.Lemma.Opening
import Verif.Lemma.OpeningSys
import Verif.Props.Opening
import Verif.Model.Stop
import Verif.Spec.Stop
import Verif.Lemma.Stop
import Verif.Props.Stop
import Verif.Model.Display
import Verif.Props.Display
import Verif.Model.Core
import Verif.Props.Core
import Verif.Spec.Audit
import Verif.Model.Audit
import Verif.Props.Audit
import Verif.Model.Loss
import Verif.Props.Loss
import Verif.Spec.Loss
import Verif.Lemma.Loss
import Verif.Model.CliLoop
import Verif.Spec.CliLoop
import Verif.Lemma.CliLoop
import Verif.Props.CliLoop
import Verif.Spec.Apart
import Verif.Lemma.Apart
import Verif.Props.Apart
import Verif.Spec.Slow
import Verif.Lemma.Slow
import Verif.Props.Slow
import Verif.Spec.Watch
import Verif.Lemma.Watch
import Verif.Props.Watch
import Verif.Spec.Kept
import Verif.Lemma.Kept
import Verif.Props.Kept
import Verif.Model.EscLog
import Verif.Lemma.EscLog
import Verif.Props.EscLog
import Verif.Spec.ResetTime
import Verif.Model.ResetTime
import Verif.Lemma.ResetTime
import Verif.Props.ResetTime
import Verif.Model.ConfLoad
import Verif.Props.ConfLoad
import Verif.Props.BackoffHint
import Verif.Props.ProtoLong
import Verif.Props.RspOutcome
