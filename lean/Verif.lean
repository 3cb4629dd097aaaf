import Verif.Props.Holes
import Verif.Props.Flags
import Verif.Props.FlagText
import Verif.Props.Timestamp
import Verif.Props.Data
import Verif.Props.Beacon
import Verif.Props.Request
import Verif.Props.Dirent
import Verif.Props.Metadata
import Verif.Props.Status
import Verif.Props.New
import Verif.Props.Global
import Verif.Props.MetaNew
import Verif.Props.Sarnet
import Verif.Props.Peers
import Verif.Props.Files
import Verif.Props.Trans
import Verif.Props.Listen
import Verif.Props.MainLoop
import Verif.Props.MainCrash
import Verif.Props.MainLists
import Verif.Props.Teach
import Verif.Props.Session
import Verif.Props.Settings
import Verif.Props.Transfers
import Verif.Props.StatusOut
import Verif.Props.Prompt
import Verif.Props.TranCmds
import Verif.Props.Make
import Verif.Props.Print
import Verif.Props.Cliflags
import Verif.Props.HolesHeap
import Verif.Props.Config
import Verif.Props.BeaconCmd
import Verif.Props.Report
import Verif.Props.Stamped
import Verif.Props.Overwrite
import Verif.Props.Client
import Verif.Props.ClientFit
import Verif.Props.Deliver
import Verif.Props.Resend
import Verif.Props.Help
import Verif.Props.Listing
import Verif.Props.Screen
import Verif.Props.Startup
import Verif.Props.Locks
import Verif.Props.BeaconLock
import Verif.Props.TableRace
import Verif.Props.Send
import Verif.Props.Editing
import Verif.Props.Queries
import Verif.Props.Scroll
import Verif.Props.Console
import Verif.Props.Usage
import Verif.Model.Calendar
import Verif.Spec.Calendar
import Verif.Spec.Desk
import Verif.Props.Calendar
import Verif.Props.PeerTimes
import Verif.Model.Desk
import Verif.Model.Dial
import Verif.Model.System
import Verif.Props.Desk
import Verif.Props.Dial
import Verif.Props.System
import Verif.Model.PrintText
import Verif.Lemmas.PrintText
import Verif.Props.PrintText
import Verif.Model.Keys
import Verif.Props.Keys
import Verif.Model.Terminal
import Verif.Props.Terminal
import Verif.Model.Suite
import Verif.Props.Suite
import Verif.Model.Program
import Verif.Spec.Program
import Verif.Lemmas.Program
import Verif.Props.Program
import Verif.Model.FileMeta
import Verif.Spec.FileMeta
import Verif.Props.FileMeta
import Verif.Model.TranSays
import Verif.Lemmas.TranSays
import Verif.Props.TranSays
import Verif.Model.ReadStatus
import Verif.Spec.ReadStatus
import Verif.Lemmas.ReadStatus
import Verif.Props.ReadStatus
import Verif.Model.Network
import Verif.Spec.Network
import Verif.Lemmas.Network
import Verif.Props.Network
import Verif.Model.PutRun
import Verif.Spec.PutRun
import Verif.Lemmas.PutRun
import Verif.Props.PutRun
import Verif.Model.Receive
import Verif.Spec.Receive
import Verif.Lemmas.Receive
import Verif.Props.Receive
import Verif.Props.Announce
import Verif.Props.Arrivals
import Verif.Props.Interrupt
import Verif.Model.Watch
import Verif.Props.Watch
import Verif.Props.Survive
import Verif.Props.Exact
import Verif.Props.Extent
import Verif.Props.Sharp
import Verif.Props.Limits
import Verif.Props.Began
import Verif.Props.Crc
import Verif.Props.Safe
import Verif.Props.Fits
import Verif.Props.Auth
import Verif.Props.Announced
import Verif.Props.Again
import Verif.Props.ClearEnds
import Verif.Props.Danger
import Verif.Props.Lost
import Verif.Props.Memory
import Verif.Props.History
import Verif.Props.Busy
import Verif.Props.Ending
import Verif.Props.StartText
import Verif.Props.ShippedHelp
import Verif.Props.Mutexes
import Verif.Props.RecordSize
import Verif.Props.Kinds
import Verif.Props.StampOrder
import Verif.Props.BeaconSays
import Verif.Props.Replies
import Verif.Props.OneFile
import Verif.Props.LastWord
import Verif.Props.Opened
import Verif.Props.Unseen
import Verif.Props.Distinct
import Verif.Props.Separate
import Verif.Props.Undo
import Verif.Props.HolesWork
import Verif.Props.Repair
import Verif.Props.Willing
import Verif.Props.Cut
import Verif.Props.Forever
import Verif.Props.BusyForever
import Verif.Props.Advertised
import Verif.Props.Discovery
import Verif.Props.Rounds
import Verif.Props.Outgoing
import Verif.Props.Damage
import Verif.Props.Wanted
import Verif.Props.BeaconSize
import Verif.Props.Crowd
import Verif.Props.CrowdForever
import Verif.Props.CrowdRest
import Verif.Props.Current
import Verif.Props.Restart
import Verif.Props.RestartForever
import Verif.Props.Labels
import Verif.Props.RestartCurrent
import Verif.Props.Strangers
import Verif.Props.StrangersForever
import Verif.Props.StrangersRest
import Verif.Props.Wild
import Verif.Props.WildForever
import Verif.Props.WildTurn
import Verif.Props.SendEnds
import Verif.Props.Addressed
import Verif.Props.WildRest
import Verif.Props.Fresh
import Verif.Props.StrangersCurrent
import Verif.Props.WildCurrent
import Verif.Props.DiskShare
import Verif.Props.Owner
import Verif.Props.DirCopy
import Verif.Props.FlagNames
