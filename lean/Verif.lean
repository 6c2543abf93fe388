import Verif.Fsm.PropsServer
import Verif.Core.MethodProps
import Verif.Manager.PropsTables
import Verif.Manager.PropsClient
import Verif.Manager.PropsServer
import Verif.Manager.Race
import Verif.Transport.PropsFraming
import Verif.RateLimit.Props
import Verif.RateLimit.Race
import Verif.Core.HeadersProps
import Verif.Auth.PropsServer
import Verif.Auth.PropsClient
import Verif.Registrar.PropsStore
import Verif.Registrar.LemmasText
import Verif.Registrar.Props
import Verif.Registrar.PropsOwner
import Verif.Registrar.PropsAnswer
import Verif.Registrar.PropsOrder
import Verif.Registrar.Race
import Verif.Registrar.PropsKeys
import Verif.Auth.PropsRetry
import Verif.Core.UriProps
import Verif.Core.MaxForwardsProps
import Verif.Proxy.PropsFork
import Verif.Proxy.PropsForward
import Verif.Proxy.PropsCancel
import Verif.Core.HeadersGet
import Verif.Dialog.Props
import Verif.Dialog.PropsMatch
import Verif.Dialog.UacProps
import Verif.Dialog.PropsAck
import Verif.Dialog.Refresh
import Verif.Dialog.PropsPrack
import Verif.Dialog.PropsReliable
import Verif.Dialog.PropsTimer
import Verif.Core.ViaProps
import Verif.Uas.RportProps
import Verif.Uas.ResponseProps
import Verif.Uas.DispatchProps
import Verif.Uas.CrashProps
import Verif.Uas.AcceptProps
import Verif.Dialog.PropsCreate
import Verif.Dialog.PropsPrackMore
import Verif.Parse.Stream
import Verif.Dialog.Store
import Verif.Dialog.TimerManager
import Verif.Core.RSeq
import Verif.Dns.Props
import Verif.Dns.Enum
import Verif.Dns.Dhcp
import Verif.Sdp.Props
import Verif.Sdp.TextProps
import Verif.Sdp.ProfileProps
import Verif.Pool.Props
import Verif.Sub.PropsMgr
import Verif.Sub.Props
import Verif.Sub.PropsNotify
import Verif.Sub.ReferProps
import Verif.Sub.PropsProgress
import Verif.Sub.PropsReplaces
import Verif.Sub.PropsVia
import Verif.Identity.Props
import Verif.Identity.PropsErrors
import Verif.Privacy.Props
import Verif.Bridge.Props
import Verif.Bridge.PropsLost
import Verif.Bridge.PropsCall
import Verif.Bridge.PropsEnd
import Verif.Bridge.PropsCancel
import Verif.Bridge.SpecReinvite
import Verif.Bridge.PropsReinvite
import Verif.Bridge.Alone
import Verif.Daemon.Model
import Verif.Daemon.Spec
import Verif.Daemon.Lemmas
import Verif.Daemon.Frames
import Verif.Daemon.PropsCall
import Verif.Daemon.PropsAnswer
import Verif.Daemon.CasesCall
import Verif.Daemon.Waits
import Verif.Daemon.PropsCancel
import Verif.Daemon.PropsOnly
import Verif.Daemon.CasesCancel
import Verif.Daemon.PropsWithin
import Verif.Daemon.PropsPrack
import Verif.Daemon.PropsReliable
import Verif.Daemon.CasesReliable
import Verif.Daemon.CasesWithin
import Verif.Daemon.SpecReplaces
import Verif.Daemon.PropsReplaces
import Verif.Daemon.CasesReplaces
import Verif.Daemon.Guard
import Verif.Daemon.SpecGuard
import Verif.Daemon.PropsGuard
import Verif.Daemon.CasesGuard
import Verif.Offer.Model
import Verif.Offer.Spec
import Verif.Offer.Lemmas
import Verif.Offer.LemmasAnswer
import Verif.Offer.LemmasPre
import Verif.Offer.PropsAnswer
import Verif.Offer.PropsHold
import Verif.Offer.Cases
import Verif.Relay.Model
import Verif.Relay.Spec
import Verif.Relay.Lemmas
import Verif.Relay.PropsForward
import Verif.Relay.PropsInvite
import Verif.Relay.PropsResponse
import Verif.Relay.PropsMatch
import Verif.Relay.Cases
import Verif.Core.Ipv6Spec
import Verif.Core.Ipv6Props
import Verif.Core.UriText
import Verif.Core.UriTextLemmas
import Verif.Core.UriTextProps
import Verif.Core.UriTextTel
import Verif.Core.UriTextCases
import Verif.Core.UriHeaders
import Verif.Prefs.Model
import Verif.Prefs.Spec
import Verif.Prefs.Lemmas
import Verif.Prefs.PropsCaps
import Verif.Prefs.PropsScore
import Verif.Prefs.PropsDisposition
import Verif.Core.Replaces
import Verif.Core.ReplacesSpec
import Verif.Core.ReplacesProps
import Verif.SecAgree.Model
import Verif.SecAgree.Spec
import Verif.SecAgree.PropsChoice
import Verif.SecAgree.PropsText
import Verif.Hep.Model
import Verif.Hep.Spec
import Verif.Hep.Lemmas
import Verif.Hep.Props
import Verif.Reason.Model
import Verif.Reason.Spec
import Verif.Reason.Props
import Verif.Reason.PropsText
import Verif.Mwi.Model
import Verif.Mwi.Spec
import Verif.Mwi.Props
import Verif.Mwi.PropsText
import Verif.Prio.Props
import Verif.Tokens.Props
import Verif.Date.Props
import Verif.Frag.Props
import Verif.Event.Props
import Verif.Mime.Props
import Verif.Version.Props
import Verif.Subject.Props
