import Verif.Lemmas.BMap
import Verif.Model.Driver
import Verif.Model.Typed
import Verif.Model.Chain
import Verif.Model.Extend
import Verif.Props.Encoding
import Verif.Props.RoundIds
import Verif.Props.Preprocess
import Verif.Props.Accum
import Verif.Props.Par
import Verif.Props.Run
import Verif.Props.Transcript
import Verif.Props.Echo
import Verif.Props.Crash
import Verif.Props.CrashExact
import Verif.Spec.Cancel
import Verif.Props.Cancel
import Verif.Props.EvidenceComplete
import Verif.Props.EvidenceSound
import Verif.Props.Exec
import Verif.Props.Chain
import Verif.Props.Extend
import Verif.Props.Required
import Verif.Model.RunSync
import Verif.Props.RunSync
import Verif.Model.Network
import Verif.Props.Network
import Verif.Model.Simple
import Verif.Props.Simple
import Verif.Model.TestParams
import Verif.Model.Dining
import Verif.Props.Dining
import Verif.Props.EvidencePanic
import Verif.Props.ChainNet
import Verif.Props.TestParams
import Verif.Props.RunSyncNet
import Verif.Props.RunSyncExamples
import Verif.Props.Schedule
import Verif.Spec.Byzantine
import Verif.Lemmas.Byzantine
import Verif.Lemmas.ByzantineInv
import Verif.Lemmas.ByzantineProto
import Verif.Lemmas.ByzRun
import Verif.Props.Byzantine
import Verif.Spec.Open
import Verif.Lemmas.Open
import Verif.Lemmas.OpenRun
import Verif.Props.Open
import Verif.Model.RunAsync
import Verif.Lemmas.RunAsync
import Verif.Lemmas.RunAsyncDeadlock
import Verif.Lemmas.RunAsyncCrowd
import Verif.Props.RunAsync
import Verif.Spec.Scheme
import Verif.Lemmas.Scheme
import Verif.Lemmas.SchemeInv
import Verif.Lemmas.SchemePlan
import Verif.Lemmas.SchemeDemo
import Verif.Props.Scheme
import Verif.Model.PartialEcho
import Verif.Spec.PartialEcho
import Verif.Lemmas.PartialEcho
import Verif.Props.PartialEcho
import Verif.Lemmas.ParRun
import Verif.Props.ParRun
import Verif.Model.ParNet
import Verif.Lemmas.ParNet
import Verif.Props.ParNet
import Verif.Spec.TypedEvidence
import Verif.Lemmas.TypedEvidence
import Verif.Props.TypedEvidence
import Verif.Lemmas.SimpleEvidence
import Verif.Props.SimpleEvidence
import Verif.Spec.Deviate
import Verif.Lemmas.Deviate
import Verif.Lemmas.DeviateAcc
import Verif.Lemmas.DeviateNet
import Verif.Lemmas.DeviateRun
import Verif.Lemmas.DeviateSync
import Verif.Lemmas.ExtendNet
import Verif.Spec.Misbehave
import Verif.Lemmas.Misbehave
import Verif.Model.Misbehave
import Verif.Spec.MisbehaveCheck
import Verif.Props.Deviate
import Verif.Props.Misbehave
import Verif.Model.SimpleTest
import Verif.Props.SimpleMisbehave
import Verif.Model.Defaults
import Verif.Model.Bench
import Verif.Spec.Bench
import Verif.Lemmas.Bench
import Verif.Lemmas.DeadEnd
import Verif.Props.Bench
import Verif.Model.Erased
import Verif.Spec.Erased
import Verif.Lemmas.Reshape
import Verif.Lemmas.Erased
import Verif.Props.Erased
import Verif.Model.RunAsyncPar
import Verif.Lemmas.RunAsyncPar
import Verif.Lemmas.RunAsyncSim
import Verif.Props.RunAsyncPar
import Verif.Spec.Bound
import Verif.Lemmas.Bound
import Verif.Props.Bound
import Verif.Model.Send
import Verif.Spec.Send
import Verif.Lemmas.Send
import Verif.Props.Send
import Verif.Model.ParSend
import Verif.Spec.ParSend
import Verif.Lemmas.ParSend
import Verif.Props.ParSend
import Verif.Model.Describe
import Verif.Spec.Describe
import Verif.Lemmas.Describe
import Verif.Props.Describe
import Verif.Model.RunAsyncSend
import Verif.Spec.RunAsyncSend
import Verif.Lemmas.RunAsyncSend
import Verif.Lemmas.RunAsyncSendNet
import Verif.Props.RunAsyncSend
import Verif.Spec.Equivocation
import Verif.Lemmas.Equivocation
import Verif.Props.Equivocation
import Verif.Spec.Accused
import Verif.Props.Accused
import Verif.Model.Wire
import Verif.Spec.Wire
import Verif.Lemmas.Wire
import Verif.Props.Wire
import Verif.Spec.Nested
import Verif.Props.Nested
import Verif.Spec.Multi
import Verif.Props.Multi
import Verif.Spec.Charges
import Verif.Props.Charges
import Verif.Spec.Bans
import Verif.Lemmas.Bans
import Verif.Props.Bans
import Verif.Spec.Traced
import Verif.Lemmas.Traced
import Verif.Props.Traced
import Verif.Spec.Stall
import Verif.Lemmas.Settle
import Verif.Lemmas.Stall
import Verif.Props.Stall
import Verif.Lemmas.RunSyncQuiet
import Verif.Spec.LockStep
import Verif.Lemmas.LockStep
import Verif.Lemmas.OpenOrder
import Verif.Props.LockStep
import Verif.Spec.ParOpen
import Verif.Lemmas.ParAny
import Verif.Lemmas.ParVisits
import Verif.Lemmas.ParEvidence
import Verif.Lemmas.ParOpen
import Verif.Props.ParAny
import Verif.Spec.ParAccused
import Verif.Lemmas.ParEquivocation
import Verif.Props.ParAccused
import Verif.Spec.ParLockStep
import Verif.Lemmas.ParOrder
import Verif.Props.ParLockStep
import Verif.Spec.ParByzantine
import Verif.Lemmas.ParByzantine
import Verif.Lemmas.ParByzantineInv
import Verif.Lemmas.ParByzantineStep
import Verif.Lemmas.ParByzantineRun
import Verif.Lemmas.ParByzantineStall
import Verif.Lemmas.ParByzRun
import Verif.Props.ParByzantine
import Verif.Props.ParStall
import Verif.Spec.RunAsyncAny
import Verif.Lemmas.RunAsyncAny
import Verif.Lemmas.AsyncRun
import Verif.Props.RunAsyncAny
import Verif.Spec.ParBans
import Verif.Lemmas.ParBans
import Verif.Props.ParBans
import Verif.Spec.RunAsyncParAny
import Verif.Lemmas.RunAsyncParAny
import Verif.Lemmas.PAsyncRun
import Verif.Props.RunAsyncParAny
import Verif.Props.RunAsyncSendAny
import Verif.Model.MixNet
import Verif.Lemmas.MixNet
import Verif.Props.MixNet
import Verif.Spec.MixByzantine
import Verif.Lemmas.MixByzantine
import Verif.Lemmas.MixByzRun
import Verif.Props.MixByzantine
import Verif.Lemmas.Loose
import Verif.Spec.MixOpen
import Verif.Lemmas.MixOpen
import Verif.Props.MixOpen
import Verif.Spec.MixMulti
import Verif.Props.MixMulti
import Verif.Spec.Untraceable
import Verif.Props.Untraceable
import Verif.Spec.MixCharges
import Verif.Props.MixCharges
import Verif.Spec.Convinces
import Verif.Props.Convinces
