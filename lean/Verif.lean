import Verif.Base.GoLit
import Verif.Base.GoMap
import Verif.Base.Json
import Verif.Base.Str
import Verif.Model.Ack
import Verif.Model.AckRace
import Verif.Model.AddProps
import Verif.Model.Again
import Verif.Model.Broker
import Verif.Model.BrokerOpts
import Verif.Model.Cancel
import Verif.Model.CertModes
import Verif.Model.Certs
import Verif.Model.ChanRef
import Verif.Model.ChannelAddr
import Verif.Model.CiDirs
import Verif.Model.Cli
import Verif.Model.CmdLine
import Verif.Model.Codegen
import Verif.Model.Command
import Verif.Model.Compose
import Verif.Model.Connect
import Verif.Model.Context
import Verif.Model.Controller
import Verif.Model.Convert
import Verif.Model.CorrFns
import Verif.Model.CorrTree
import Verif.Model.Decode
import Verif.Model.Dedup
import Verif.Model.Defined
import Verif.Model.Describe
import Verif.Model.Dispatch
import Verif.Model.EndToEnd
import Verif.Model.Feed
import Verif.Model.Fields
import Verif.Model.FileHead
import Verif.Model.FileImports
import Verif.Model.FileImports2
import Verif.Model.Headers
import Verif.Model.Idents
import Verif.Model.Idents2
import Verif.Model.Imports
import Verif.Model.Inherit
import Verif.Model.JetCrash
import Verif.Model.JetRace
import Verif.Model.JetStream
import Verif.Model.Kafka
import Verif.Model.KafkaConns
import Verif.Model.KafkaCrash
import Verif.Model.KafkaLeave
import Verif.Model.Lifetimes
import Verif.Model.Listen
import Verif.Model.Literals
import Verif.Model.LogSlices
import Verif.Model.Logs
import Verif.Model.Members
import Verif.Model.Message
import Verif.Model.Methods
import Verif.Model.Middleware
import Verif.Model.MsgText
import Verif.Model.Names
import Verif.Model.Names2
import Verif.Model.Naming
import Verif.Model.NatsOrder
import Verif.Model.NatsSlow
import Verif.Model.NatsWire
import Verif.Model.OldReplies
import Verif.Model.OldRepliesJet
import Verif.Model.OpTypes
import Verif.Model.Panics
import Verif.Model.Panics2
import Verif.Model.Parse
import Verif.Model.Partition
import Verif.Model.Payload
import Verif.Model.PayloadRef
import Verif.Model.Pipeline
import Verif.Model.Process
import Verif.Model.Races
import Verif.Model.Recursive
import Verif.Model.RefFiles
import Verif.Model.Reflect
import Verif.Model.Refs
import Verif.Model.Release
import Verif.Model.ReplyLoc
import Verif.Model.RequestReply
import Verif.Model.Required
import Verif.Model.SchemaMerge
import Verif.Model.Send
import Verif.Model.Shared
import Verif.Model.Sides
import Verif.Model.Strcase
import Verif.Model.SubRace
import Verif.Model.TextLog
import Verif.Model.Times
import Verif.Model.Transport
import Verif.Model.Types
import Verif.Model.Unsub
import Verif.Model.Validations
import Verif.Model.Validator
import Verif.Model.ValidatorMore
import Verif.Model.ValidatorTime
import Verif.Model.Values
import Verif.Model.Variants
import Verif.Model.VersionLocks
import Verif.Model.Versioning
import Verif.Model.Waiting
import Verif.Model.Walk
import Verif.Proofs.AddProps
import Verif.Proofs.Cancel
import Verif.Proofs.ChannelAddr
import Verif.Proofs.Controller
import Verif.Proofs.Decode
import Verif.Proofs.Json
import Verif.Proofs.Middleware
import Verif.Proofs.MsgText
import Verif.Proofs.Naming
import Verif.Proofs.Panics
import Verif.Proofs.Panics2
import Verif.Proofs.Payload
import Verif.Proofs.Times
import Verif.Proofs.Validator
import Verif.Proofs.Versioning
import Verif.Props.Ack
import Verif.Props.AckRace
import Verif.Props.AddProps
import Verif.Props.Again
import Verif.Props.BrokerOpts
import Verif.Props.Cancel
import Verif.Props.CertModes
import Verif.Props.Certs
import Verif.Props.ChanRef
import Verif.Props.ChannelAddr
import Verif.Props.CiDirs
import Verif.Props.Cli
import Verif.Props.CmdLine
import Verif.Props.Codegen
import Verif.Props.Command
import Verif.Props.Compose
import Verif.Props.Connect
import Verif.Props.Context
import Verif.Props.Controller
import Verif.Props.Convert
import Verif.Props.CorrFns
import Verif.Props.CorrTree
import Verif.Props.Decode
import Verif.Props.Dedup
import Verif.Props.Deep
import Verif.Props.Defined
import Verif.Props.Describe
import Verif.Props.Dispatch
import Verif.Props.EndToEnd
import Verif.Props.Feed
import Verif.Props.FileHead
import Verif.Props.FileImports
import Verif.Props.FileImports2
import Verif.Props.Headers
import Verif.Props.Idents
import Verif.Props.Idents2
import Verif.Props.Imports
import Verif.Props.Inherit
import Verif.Props.JetCrash
import Verif.Props.JetRace
import Verif.Props.JetStream
import Verif.Props.Kafka
import Verif.Props.KafkaConns
import Verif.Props.KafkaCrash
import Verif.Props.KafkaLeave
import Verif.Props.Keys
import Verif.Props.Lifetimes
import Verif.Props.Listen
import Verif.Props.Literals
import Verif.Props.LogSlices
import Verif.Props.Logs
import Verif.Props.Members
import Verif.Props.Message
import Verif.Props.MessageAgain
import Verif.Props.Methods
import Verif.Props.Middleware
import Verif.Props.MsgText
import Verif.Props.Names
import Verif.Props.Names2
import Verif.Props.Naming
import Verif.Props.NamingRunes
import Verif.Props.NatsOrder
import Verif.Props.NatsSlow
import Verif.Props.NatsWire
import Verif.Props.OldReplies
import Verif.Props.OldRepliesJet
import Verif.Props.OpTypes
import Verif.Props.Panics
import Verif.Props.Panics2
import Verif.Props.Params
import Verif.Props.Parse
import Verif.Props.Partition
import Verif.Props.Payload
import Verif.Props.PayloadRef
import Verif.Props.Pipeline
import Verif.Props.Process
import Verif.Props.Races
import Verif.Props.Recursive
import Verif.Props.RefFiles
import Verif.Props.Reflect
import Verif.Props.Refs
import Verif.Props.Release
import Verif.Props.ReplyAck
import Verif.Props.ReplyListed
import Verif.Props.ReplyLoc
import Verif.Props.Request
import Verif.Props.RequestReply
import Verif.Props.RequestV2
import Verif.Props.Required
import Verif.Props.SchemaMerge
import Verif.Props.Send
import Verif.Props.Shared
import Verif.Props.Sides
import Verif.Props.Strcase
import Verif.Props.SubRace
import Verif.Props.TextLog
import Verif.Props.Times
import Verif.Props.Transport
import Verif.Props.Types
import Verif.Props.Unsub
import Verif.Props.Validations
import Verif.Props.Validator
import Verif.Props.ValidatorMore
import Verif.Props.ValidatorTime
import Verif.Props.Values
import Verif.Props.Variants
import Verif.Props.VersionLocks
import Verif.Props.Versioning
import Verif.Props.Waiting
import Verif.Props.Walk
import Verif.Spec.Cancel
import Verif.Spec.CertModes
import Verif.Spec.Certs
import Verif.Spec.CmdLine
import Verif.Spec.Command
import Verif.Spec.Controller
import Verif.Spec.Decode
import Verif.Spec.JetStream
import Verif.Spec.Lifetimes
import Verif.Spec.Literals
import Verif.Spec.Middleware
import Verif.Spec.NatsOrder
import Verif.Spec.NatsSlow
import Verif.Spec.NatsWire
import Verif.Spec.Panics
import Verif.Spec.Panics2
import Verif.Spec.Recursive
import Verif.Spec.RefFiles
import Verif.Spec.Refs
import Verif.Spec.Strcase
import Verif.Spec.Times
import Verif.Spec.Types
import Verif.Spec.Validator
import Verif.Spec.Values
import Verif.Spec.Versioning
import Verif.Spec.Walk
