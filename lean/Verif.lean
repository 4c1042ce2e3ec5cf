import Verif.CommonMath.Props
import Verif.BufferUtil.Props
import Verif.Asn1.Props
import Verif.Base64.Props
import Verif.AesKeyWrap.Props
import Verif.Kdf.Props
import Verif.Hmac.Props
import Verif.EccDer.Props
import Verif.Checksum.Props
import Verif.Mctp.Props
import Verif.LoggingMemory.Props
import Verif.StateManager.Props
import Verif.HostState.Props
import Verif.Flash.Props
import Verif.Flash.Live
import Verif.FlashStore.Props
import Verif.Heap.Props
import Verif.KeyCache.Props
import Verif.Observable.Props
import Verif.Pcr.Props
import Verif.ManifestManager.Props
import Verif.ManifestVerification.Props
import Verif.ManifestFlash.Props
import Verif.AuthToken.Props
import Verif.SessionManager.Props
import Verif.Counters.Props
import Verif.CmdChannel.Props
import Verif.CmdMsg.Props
import Verif.ConfigReset.Props
import Verif.FwUpdate.Props
import Verif.HostFw.Props
import Verif.HostProc.Props
import Verif.HostFlash.Props
import Verif.HostFlash.FilterProps
import Verif.SpiFlash.Props
import Verif.Recovery.Props
import Verif.Recovery.ManagerProps
import Verif.Protocol.Props
import Verif.LoggingFlash.Bad
import Verif.Protocol.AnswerProps
import Verif.OcpRecovery.Cases
import Verif.Unlock.Cases
import Verif.Pcisig.Props
import Verif.Pcisig.IdeProps
import Verif.Pcisig.DoeProps
import Verif.Spdm.TranscriptProps
import Verif.Spdm.SessionTable
import Verif.Spdm.FlowCases
import Verif.FwImage.Results
import Verif.OcpRecovery.Answers
import Verif.Riot.Ops
import Verif.Attest.Locks
import Verif.Attest.Examples
import Verif.Intrusion.Props
import Verif.Tpm.Props
import Verif.EventTask.Props
import Verif.Impactful.Props
import Verif.Requester.VerdictProps
import Verif.Requester.FlowWitness
import Verif.RiotSha.Props
import Verif.RiotSha.HmacKdf
import Verif.RiotDer.Props
import Verif.RiotDer.DecProps
import Verif.CertBuild.Props
import Verif.ExtBuild.Props
import Verif.RiotCore.Props
import Verif.FwPfm.Props
import Verif.SpdmMeas.Props
import Verif.SpdmCert.Props
import Verif.Mmio.Props
import Verif.SpdmNeg.Props
import Verif.DevSched.Props
import Verif.Discovery.Props
import Verif.MctpCtl.Props
import Verif.CfmFlash.Props
import Verif.PcdFlash.Props
import Verif.RiotAes.Props
import Verif.HostIrq.Props
import Verif.RiotB64.Props
import Verif.RamFlash.Props
import Verif.MeasObs.Props
import Verif.ErrorState.Props
import Verif.Rfc6979.Props
import Verif.KeyGen.Props
import Verif.RiotSha1.Props
import Verif.HostSingle.Props
import Verif.SigVerEcc.Props
import Verif.EphemeralKeys.Props
import Verif.UpdateReset.Props
import Verif.MsgRoute.Props
import Verif.PeriodicTask.Props
