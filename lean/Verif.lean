import Verif.Props.Framing
import Verif.Props.Codec
import Verif.Props.Options
import Verif.Props.Headers
import Verif.Props.HeaderDiff
import Verif.Props.SetReply
import Verif.Props.Macros
import Verif.Props.MacrosRequests
import Verif.Props.FileMode
import Verif.Props.Connection
import Verif.Props.Esmtp
import Verif.Props.Writer
import Verif.Props.Control
import Verif.Props.Server
import Verif.Props.ServerBody
import Verif.Props.ServerRecipients
import Verif.Props.ChildrenNegotiation
import Verif.Props.ChildrenFailure
import Verif.Props.ChildrenEvaluation
import Verif.Props.ChildrenMessage
import Verif.Props.ChildrenChain
import Verif.Props.ChildrenPhase
import Verif.Props.MacrosSent
import Verif.Props.Client
import Verif.Props.ClientSession
import Verif.Props.Leader
import Verif.Props.Session
import Verif.Props.SessionMessage
import Verif.Props.SessionCopy
import Verif.Props.Logger
import Verif.Props.Service
import Verif.Props.Checker
import Verif.Props.LibMilter
import Verif.Props.LibMilterRuns
import Verif.Core.Reader
import Verif.Spec.Reader
import Verif.Props.Reader
import Verif.Core.EventLoop
import Verif.Spec.EventLoop
import Verif.Props.EventLoop
import Verif.Manager.Configuration
import Verif.Spec.Configuration
import Verif.Props.Configuration
import Verif.Core.Xml
import Verif.Core.XmlReader
import Verif.Spec.Xml
import Verif.Manager.ConfigurationXml
import Verif.Spec.ConfigurationXml
import Verif.Props.ConfigurationXml
import Verif.Manager.XmlLoader
import Verif.Spec.XmlLoader
import Verif.Props.XmlLoader
import Verif.Core.Agent
import Verif.Spec.Agent
import Verif.Props.Agent
import Verif.Core.Credentials
import Verif.Client.Privilege
import Verif.Manager.Startup
import Verif.Manager.Launcher
import Verif.Spec.Credentials
import Verif.Spec.Launcher
import Verif.Props.Privilege
import Verif.Props.Launcher
import Verif.Manager.Conditions
import Verif.Spec.Conditions
import Verif.Props.Conditions
import Verif.Manager.Tables
import Verif.Spec.Tables
import Verif.Props.Tables
import Verif.Manager.Netstat
import Verif.Spec.Netstat
import Verif.Props.Netstat
import Verif.Manager.ChildrenRefusal
import Verif.Props.ChildrenRounds
import Verif.Props.Workers
import Verif.Spec.Early
import Verif.Manager.ChildrenEarly
import Verif.Manager.ChildrenEarlyRefusal
import Verif.Props.ChildrenEarly
import Verif.Props.ChildrenEnd
import Verif.Manager.ChildrenSkip
import Verif.Props.ChildrenSkip
import Verif.Client.Ruby
import Verif.Spec.Ruby
import Verif.Client.RubyFacts
import Verif.Props.Ruby
import Verif.Props.Egg
import Verif.Spec.Stop
import Verif.Manager.ChildrenStop
import Verif.Props.ChildrenStop
import Verif.Spec.Report
import Verif.Props.ServerReport
import Verif.Props.SessionGone
import Verif.Manager.Shipped
import Verif.Spec.Shipped
import Verif.Props.Shipped
import Verif.Spec.Course
import Verif.Props.SessionFront
import Verif.Props.SessionSays
import Verif.Props.SessionCourse
import Verif.Tool.TestServer
import Verif.Spec.TestServer
import Verif.Props.TestServer
import Verif.Props.TestServerTalk
import Verif.Props.LaunchOnce
import Verif.Props.ControlSession
import Verif.Props.DetectorWhole
import Verif.Props.Dump
import Verif.Props.Policy
import Verif.Props.EnvelopeAddress
import Verif.Props.PackageOptions
import Verif.Props.Path
import Verif.Props.UnixSocket
import Verif.Props.Systemd
import Verif.Props.DetectorRcWhole
import Verif.Props.RubySettings
import Verif.Props.ClientReport
import Verif.Props.DetectorUpstart
import Verif.Props.DetectorPkgsrc
import Verif.Props.InitInfo
import Verif.Props.Python
import Verif.Props.PythonSettings
import Verif.Props.PythonMessages
import Verif.Props.Samples
import Verif.Props.SamplesRefuse
import Verif.Props.LogAnalyzer
import Verif.Props.LogAnalyzerBounds
import Verif.Props.Later
import Verif.Props.SamplesSender
import Verif.Props.SamplesPython
import Verif.Props.Testing
import Verif.Props.Module
import Verif.Props.SessionResult
import Verif.Props.TestClient
import Verif.Props.Statistics
import Verif.Props.TestClientLibmilter
import Verif.Props.PerformanceCheck
import Verif.Props.PerformanceStatistics
import Verif.Props.PerformanceEnvelope
import Verif.Props.PerformanceAnalyzer
import Verif.Props.PerformancePeriod
import Verif.Props.PerformanceOption
import Verif.Props.PerformanceFlood
import Verif.Props.RubyLogger
