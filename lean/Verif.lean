import Verif.Lemmas.CerInt
import Verif.Lemmas.Client
import Verif.Lemmas.Db
import Verif.Lemmas.Delegation
import Verif.Lemmas.Device
import Verif.Lemmas.DeviceDb
import Verif.Lemmas.Director
import Verif.Lemmas.DirectorUpdate
import Verif.Lemmas.Events
import Verif.Lemmas.Except
import Verif.Lemmas.Frame
import Verif.Lemmas.FsMigrate
import Verif.Lemmas.GenDelegate
import Verif.Lemmas.GenDir
import Verif.Lemmas.GenDirector
import Verif.Lemmas.GenHonest
import Verif.Lemmas.GenJson
import Verif.Lemmas.GenLinked
import Verif.Lemmas.GenPut
import Verif.Lemmas.GenReads
import Verif.Lemmas.GenRun
import Verif.Lemmas.GenRuns
import Verif.Lemmas.GenServer
import Verif.Lemmas.GenSnapshot
import Verif.Lemmas.GenTargets
import Verif.Lemmas.Hashes
import Verif.Lemmas.Honest
import Verif.Lemmas.HonestCycle
import Verif.Lemmas.HonestImage
import Verif.Lemmas.HonestInstall
import Verif.Lemmas.HonestOffline
import Verif.Lemmas.HonestPending
import Verif.Lemmas.HonestPolls
import Verif.Lemmas.HonestReboot
import Verif.Lemmas.HonestTree
import Verif.Lemmas.HttpClient
import Verif.Lemmas.ImageUpdate
import Verif.Lemmas.Initializer
import Verif.Lemmas.Install
import Verif.Lemmas.Match
import Verif.Lemmas.Monad
import Verif.Lemmas.Provision
import Verif.Lemmas.RootParse
import Verif.Lemmas.Roots
import Verif.Lemmas.Secondary
import Verif.Lemmas.SecondaryOstree
import Verif.Lemmas.Signatures
import Verif.Lemmas.Sql
import Verif.Lemmas.Tame
import Verif.Lemmas.Text
import Verif.Lemmas.Tools
import Verif.Lemmas.Treehub
import Verif.Lemmas.UpdateRoot
import Verif.Lemmas.Versions
import Verif.Model.Archive
import Verif.Model.Blob
import Verif.Model.Bootloader
import Verif.Model.Buffer
import Verif.Model.CApi
import Verif.Model.Campaign
import Verif.Model.Cer
import Verif.Model.CertProvider
import Verif.Model.Clean
import Verif.Model.Client
import Verif.Model.Codec
import Verif.Model.Config
import Verif.Model.Connect
import Verif.Model.Cycle
import Verif.Model.Delegation
import Verif.Model.Device
import Verif.Model.DeviceData
import Verif.Model.Download
import Verif.Model.Events
import Verif.Model.FsMigrate
import Verif.Model.Generator
import Verif.Model.Get
import Verif.Model.History
import Verif.Model.Http
import Verif.Model.HttpClient
import Verif.Model.Info
import Verif.Model.Initializer
import Verif.Model.Install
import Verif.Model.IpPair
import Verif.Model.IpSecondary
import Verif.Model.Iterate
import Verif.Model.Json
import Verif.Model.Managed
import Verif.Model.Manifest
import Verif.Model.Migrate
import Verif.Model.Monad
import Verif.Model.Queue
import Verif.Model.Rate
import Verif.Model.Reports
import Verif.Model.Repos
import Verif.Model.Scripts
import Verif.Model.Secondary
import Verif.Model.SecondaryConfig
import Verif.Model.SecondaryOstree
import Verif.Model.SecondaryStart
import Verif.Model.Signals
import Verif.Model.SourceRepo
import Verif.Model.Sql
import Verif.Model.Text
import Verif.Model.Time
import Verif.Model.Tools
import Verif.Model.Treehub
import Verif.Model.Tuf
import Verif.Model.Uboot
import Verif.Model.Util
import Verif.Model.Versions
import Verif.Model.World
import Verif.Props.C01
import Verif.Props.C02
import Verif.Props.C05
import Verif.Props.C08
import Verif.Props.C10
import Verif.Props.C11
import Verif.Props.C15
import Verif.Props.C17
import Verif.Props.C18
import Verif.Props.C18Life
import Verif.Props.C19
import Verif.Props.C20
import Verif.Props.C21
import Verif.Props.C22
import Verif.Props.C24
import Verif.Props.C25
import Verif.Props.C26
import Verif.Props.C28
import Verif.Props.C30
import Verif.Props.C32
import Verif.Props.C33
import Verif.Props.C35
import Verif.Props.C36
import Verif.Props.C37
import Verif.Props.C38
import Verif.Props.C39
import Verif.Props.C41
import Verif.Props.C41Secondaries
import Verif.Props.C42
import Verif.Props.C44
import Verif.Props.C45
import Verif.Props.C47
import Verif.Props.C49
import Verif.Props.C50
import Verif.Props.C53
import Verif.Props.C55
import Verif.Props.C56
import Verif.Props.C57
import Verif.Props.C58
import Verif.Props.C59
import Verif.Props.C60
import Verif.Props.C61
import Verif.Props.C62
import Verif.Props.C62Case
import Verif.Props.C63
import Verif.Props.C64
import Verif.Props.C65
import Verif.Props.C65Kept
import Verif.Props.C66
import Verif.Props.C67
import Verif.Props.C68
import Verif.Props.C69
import Verif.Props.C70
import Verif.Props.C70Case
import Verif.Props.C70Deleg
import Verif.Props.C70DelegCase
import Verif.Props.C70Limits
import Verif.Props.C70Toy
import Verif.Props.C71
import Verif.Props.C71Limits
import Verif.Props.C72
import Verif.Props.C73
import Verif.Props.C73Case
import Verif.Props.C73Deleg
import Verif.Props.C74
import Verif.Props.C74Case
import Verif.Props.C74Done
import Verif.Props.C75
import Verif.Props.C75Case
import Verif.Props.C75Document
import Verif.Props.C75Kept
import Verif.Props.C76
import Verif.Props.C76Case
import Verif.Props.C76Life
import Verif.Props.C77
import Verif.Props.C77Case
import Verif.Props.C77Live
import Verif.Props.C77Stuck
import Verif.Props.C78
import Verif.Props.C78Case
import Verif.Props.C78Device
import Verif.Props.C79
import Verif.Props.C79Case
import Verif.Props.C79Main
import Verif.Props.C79Prov
import Verif.Props.C79Report
import Verif.Props.C79Secrets
import Verif.Props.C79Stable
import Verif.Props.C79True
import Verif.Props.C79Wait
import Verif.Props.C80
import Verif.Props.C81
import Verif.Props.C82
import Verif.Props.C83
import Verif.Props.C84
import Verif.Props.C85
import Verif.Props.C86
import Verif.Props.C87
import Verif.Props.C88
import Verif.Props.C89
import Verif.Props.C90
import Verif.Spec.Cer
import Verif.Spec.Delegation
import Verif.Spec.GenTree
import Verif.Spec.Generator
import Verif.Spec.Honest
import Verif.Spec.HonestTree
import Verif.Spec.Metadata
import Verif.Spec.Roots
import Verif.Spec.Signatures
import Verif.Spec.Sql
import Verif.Spec.Tools
import Verif.Spec.Toy
import Verif.Spec.ToyRepo
import Verif.Spec.ToyText
import Verif.Spec.Treehub
