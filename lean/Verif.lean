import Verif.Util.GoMap
import Verif.Util.BpfIter
import Verif.Props.Syscalls
import Verif.Props.Filter
import Verif.Props.Probe
import Verif.Props.PubSub
import Verif.Props.Hash
import Verif.Props.Hub
import Verif.Props.Topology
import Verif.Props.Alert
import Verif.Props.Event
import Verif.Props.Flags
import Verif.Props.EventJSON
import Verif.Props.Controller
import Verif.Props.JobArgs
import Verif.Props.Offsets
import Verif.Props.Server
import Verif.Props.Views
import Verif.Props.Lifecycle
import Verif.Props.Moment
import Verif.Props.Sampled
import Verif.Props.Client
import Verif.Props.Daemon
import Verif.Props.Sync
import Verif.Props.Service
import Verif.Props.Serving
import Verif.Props.Print
import Verif.Props.PrintLine
import Verif.Props.Walk
import Verif.Props.Watch
import Verif.Props.Host
import Verif.Props.Startup
import Verif.Props.ClientCmd
import Verif.Props.PrintFaithful
import Verif.Props.Session
import Verif.Props.Tracer
import Verif.Props.DeepCopy
import Verif.Props.Smp
import Verif.Props.Cluster
import Verif.Props.Site
import Verif.Lemmas.SiteServe
import Verif.Props.SiteServe
import Verif.Model.CmdLine
import Verif.Spec.CmdLine
import Verif.Lemmas.CmdLine
import Verif.Props.CmdLine
import Verif.Model.Json
import Verif.Spec.Json
import Verif.Lemmas.Json
import Verif.Lemmas.JsonText
import Verif.Lemmas.JsonSound
import Verif.Model.Duration
import Verif.Spec.Duration
import Verif.Lemmas.Duration
import Verif.Lemmas.DurationSound
import Verif.Model.Wire
import Verif.Spec.Wire
import Verif.Lemmas.Wire
import Verif.Lemmas.WireShape
import Verif.Props.Wire
import Verif.Model.Order
import Verif.Lemmas.Order
import Verif.Props.Order
import Verif.Spec.Rule
import Verif.Props.Rule
import Verif.Spec.EventText
import Verif.Props.EventText
import Verif.Model.EventRead
import Verif.Spec.EventRead
import Verif.Props.EventRead
import Verif.Model.WatchStream
import Verif.Spec.WatchStream
import Verif.Props.WatchStream
import Verif.Model.Pages
import Verif.Spec.Pages
import Verif.Props.Pages
import Verif.Model.Answers
import Verif.Spec.Answers
import Verif.Props.Answers
import Verif.Model.Paths
import Verif.Spec.Paths
import Verif.Props.Paths
import Verif.Model.Top
import Verif.Spec.Top
import Verif.Props.Task
import Verif.Props.Top
import Verif.Model.Bounded
import Verif.Spec.Bounded
import Verif.Lemmas.Bounded
import Verif.Props.Bounded
import Verif.Model.Ring
import Verif.Spec.Ring
import Verif.Props.Ring
import Verif.Model.RuleText
import Verif.Spec.RuleText
import Verif.Props.RuleText
import Verif.Model.Shutdown
import Verif.Spec.Shutdown
import Verif.Props.Shutdown
import Verif.Model.Log
import Verif.Spec.Log
import Verif.Lemmas.LogCut
import Verif.Props.Log
import Verif.Model.Admit
import Verif.Spec.Admit
import Verif.Props.Admit
import Verif.Model.Names
import Verif.Spec.Names
import Verif.Props.Names
import Verif.Model.Chart
import Verif.Model.Argv
import Verif.Model.Examples
import Verif.Model.FlagUse
import Verif.Model.Dashboard
import Verif.Model.Runtime
import Verif.Spec.Chart
import Verif.Spec.Argv
import Verif.Props.Chart
import Verif.Props.Argv
import Verif.Props.Examples
import Verif.Props.FlagUse
import Verif.Props.Dashboard
import Verif.Props.Runtime
import Verif.Props.Whole
