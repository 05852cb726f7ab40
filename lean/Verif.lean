import Verif.Wire.Props
import Verif.Msg.KeyProps
import Verif.Msg.DecProps
import Verif.Msg.ReceiveProps
import Verif.Msg.EncProps
import Verif.Msg.EndToEnd
import Verif.Msg.AnyOrder
import Verif.Msg.AnyOrderToy
import Verif.Msg.TwoWay
import Verif.Msg.TwoWayParty
import Verif.Msg.TwoWayEnc
import Verif.Msg.TwoWayDec
import Verif.Msg.TwoWayJoint
import Verif.Msg.TwoWayTalk
import Verif.Msg.TwoWayToy
import Verif.Msg.TwoWayRefresh
import Verif.Msg.TwoWayRefreshToy
import Verif.Msg.TwoWayErase
import Verif.Msg.TwoWayEraseToy
import Verif.Ctrl.Journey
import Verif.Ctrl.JourneyStuck
import Verif.Ctrl.JourneyDb
import Verif.Ctrl.JourneyToy
import Verif.Msg.ToyCodec
import Verif.Util.Props
import Verif.Ident.Props
import Verif.Mime.Props
import Verif.Cipher.Aes
import Verif.Encdb.Props
import Verif.Keydb.Props
import Verif.Uid.Props
import Verif.Crypt.Props
import Verif.Crypt.Search
import Verif.Crypt.Own
import Verif.Json
import Verif.Uid.Json
import Verif.Uid.SignedBytes
import Verif.Msg.HeaderJson
import Verif.Crypt.Toy
import Verif.Asn1
import Verif.Mix.Model
import Verif.Mix.Lemmas
import Verif.Mix.Props
import Verif.Mix.Toy
import Verif.Mix.Addr
import Verif.Mix.Client
import Verif.Conf.Update
import Verif.Guard.Token
import Verif.Guard.TokenProps
import Verif.Guard.Store
import Verif.Guard.StoreProps
import Verif.Guard.Locks
import Verif.Guard.Choice
import Verif.Guard.GetToken
import Verif.Guard.Reissue
import Verif.Guard.ReissueProps
import Verif.Guard.ReissueBad
import Verif.Crypt.Domains
import Verif.Crypt.Cache
import Verif.Guard.Packet
import Verif.Guard.KeyPool
import Verif.Guard.KeyPoolProps
import Verif.Guard.Client
import Verif.Guard.ClientProps
import Verif.Guard.Rpc
import Verif.Guard.RpcProps
import Verif.Guard.Runner
import Verif.Msgdb.Model
import Verif.Msgdb.Inv
import Verif.Msgdb.Props
import Verif.Msgdb.Delivery
import Verif.Msgdb.Nyms
import Verif.Msgdb.Accounts
import Verif.Ctrl.Send
import Verif.Ctrl.SendInv
import Verif.Ctrl.SendTerm
import Verif.Ctrl.SendLive
import Verif.Ctrl.SendProps
import Verif.Ctrl.Contact
import Verif.Ctrl.Fetch
import Verif.Ctrl.InQueue
import Verif.Ctrl.Upkeep
import Verif.Ctrl.UpkeepProps
import Verif.Tui.Utf8
import Verif.Tui.TextBuffer
import Verif.Tui.Editor
import Verif.Tui.Keys
import Verif.Msg.Sender
import Verif.Msg.Panic
import Verif.Msg.Concrete
import Verif.Msg.ConcreteToy
import Verif.Ctrl.Uid
import Verif.Ctrl.UidProps
import Verif.Ctrl.UidProc
import Verif.Ctrl.UidMade
import Verif.Ctrl.UidToy
import Verif.Ctrl.UidDel
import Verif.Ctrl.Mailbox
import Verif.Ctrl.Scanner
import Verif.Ctrl.ScannerProps
import Verif.Conf.Init
import Verif.Ctrl.Setup
import Verif.Ctrl.SetupProps
import Verif.Ctrl.DbProps
import Verif.Ctrl.ConfigProps
import Verif.Ctrl.Transfer
import Verif.Ctrl.TransferProps
import Verif.Ctrl.TransferInv
import Verif.Ctrl.TransferMain
import Verif.Ctrl.TransferThms
import Verif.Ctrl.App
import Verif.Ctrl.Shutdown
import Verif.Ctrl.Deliver
import Verif.Ctrl.Show
import Verif.Ctrl.ShowProps
import Verif.Ctrl.CryptRun
import Verif.Ctrl.ScanPending
import Verif.Util.Flags
import Verif.Crypt.Loop
import Verif.Ctrl.Shell
import Verif.Ctrl.Delay
import Verif.Ctrl.MailInput
import Verif.Ctrl.AddContact
import Verif.Mix.Maintain
import Verif.Ctrl.MixKeys
import Verif.Uid.Keys
import Verif.Crypt.KeyInits
import Verif.Ctrl.Source
import Verif.Guard.KeyStore
import Verif.Ctrl.Calls
import Verif.Ctrl.Vacuum
import Verif.Keydb.Store
import Verif.Keydb.Talk
import Verif.Keydb.AnyOrder
import Verif.Msg.Crossing
import Verif.Msg.CrossingToy
import Verif.Msg.KeepKey
import Verif.Msg.CrossErase
import Verif.Msg.CrossEraseToy
import Verif.Msg.Reset
import Verif.Msg.ResetToy
import Verif.Msg.Forged
import Verif.Msg.ForgedToy
import Verif.Keydb.Reset
import Verif.Keydb.ResetToy
import Verif.Keydb.Forged
import Verif.Keydb.ForgedToy
import Verif.Msg.Damaged
import Verif.Msg.DamagedToy
