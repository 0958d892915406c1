import Verif.Fifo.Props
import Verif.Tcp.Seq
import Verif.Tcp.Queue
import Verif.Tcp.RecvProps
import Verif.Timers.Props
import Verif.Tcp.Rto
import Verif.Tcp.Paws
import Verif.Tcp.SndProps
import Verif.Tcp.SndLive
import Verif.Tcp.Window
import Verif.Text.DottedQuad
import Verif.Dns.Encode
import Verif.Dns.Query
import Verif.Wg.Replay
import Verif.Esp.Wrap
import Verif.Route.Table
import Verif.Csum.Checksum
import Verif.Tcp.Opts
import Verif.Arp.Props
import Verif.Dhcp.Lease
import Verif.Dhcp.Wire
import Verif.Dhcp.Acquire
import Verif.Http.Url
import Verif.Tftp.ServerSend
import Verif.Filter.Proof
import Verif.Link.Proof
import Verif.Link.Loopback
import Verif.Mcast.Model
import Verif.Mcast.Inv
import Verif.Mcast.Props
import Verif.Mcast.Igmp
import Verif.Sock.Model
import Verif.Sock.Base
import Verif.Sock.Next
import Verif.Sock.Reset
import Verif.Sock.Run
import Verif.Sock.Edges
import Verif.Sock.Hist
import Verif.Sock.NoStorm
import Verif.Sock.Listener
import Verif.Sock.Notify
import Verif.Sock.Bind
import Verif.Sock.Blind
import Verif.Ip.Model
import Verif.Ip.Spec
import Verif.Ip.Recv
import Verif.Ip.Deliver
import Verif.Ip.Forward
import Verif.Ip.Park
import Verif.Ip.Errors
import Verif.Ip.Echo
import Verif.Udp.Model
import Verif.Udp.Props
import Verif.Fd.Model
import Verif.Fd.Props
import Verif.Wg.Device
import Verif.Wg.Micro
import Verif.Wg.Sessions
import Verif.Wg.History
import Verif.Wg.SessionProps
import Verif.Wg.Routing
import Verif.Wg.Staged
import Verif.Wg.StagedProps
import Verif.Wg.Once
import Verif.Wg.Pacing
import Verif.Wg.PacingProps
import Verif.Supp.Frame
import Verif.Supp.Tls
import Verif.Supp.Model
import Verif.Supp.KeyData
import Verif.Supp.Steps
import Verif.Supp.Props
import Verif.Supp.Life
import Verif.Supp.Cache
import Verif.Supp.Demo
import Verif.Supp.Spacing
import Verif.Supp.Mschap
import Verif.Supp.MschapProps
import Verif.Supp.Peap
import Verif.Supp.Wpa
import Verif.Supp.WpaProps
import Verif.Supp.Cmac
import Verif.Supp.Complete
import Verif.Tcp.SndEmit
import Verif.Tcp.EndToEnd
import Verif.Tcp.Close
import Verif.Tcp.SndWindow
import Verif.Tcp.FastRtx
import Verif.Tcp.FinAck
import Verif.Http.Request
import Verif.Http.RequestProps
import Verif.Http.Serve
import Verif.Http.Clients
import Verif.Wg.Cookie
import Verif.Wg.CookieProps
import Verif.Wg.CookieHist
import Verif.Wg.CookieJar
import Verif.Wg.CookieTrip
import Verif.Dgram.Tap
import Verif.Dgram.Model
import Verif.Dgram.Recv
import Verif.Dgram.Raw
import Verif.Dgram.Icmp
import Verif.Dgram.Example
import Verif.Dgram.Send
import Verif.Dgram.SendRaw
import Verif.Dgram.Accept
import Verif.Dgram.SendExample
import Verif.Dgram.Setup
import Verif.Ready.Model
import Verif.Ready.Props
import Verif.Ready.Tcp
import Verif.Bsd.Model
import Verif.Bsd.Props
import Verif.Bsd.Wake
import Verif.Bsd.Fds
import Verif.Tcp.Neg
import Verif.Kvf.Model
import Verif.Kvf.Log
import Verif.Kvf.Write
import Verif.Kvf.Spec
import Verif.Kvf.Props
import Verif.Kvf.Step
import Verif.Kvf.Safe
import Verif.Sae.Model
import Verif.Sae.Field
import Verif.Sae.Curve
import Verif.Sae.Codec
import Verif.Sae.Commit
import Verif.Sae.Agree
import Verif.Sae.Hnp
import Verif.Sae.Sswu
import Verif.Sae.Order
import Verif.Sae.Session
import Verif.Sae.Example
import Verif.Sae.Kernel
import Verif.Sae.Check
import Verif.Sae.P256
import Verif.Sae.P384
import Verif.Sae.Nist
import Verif.Wg.Noise
import Verif.Wg.NoiseProps
import Verif.Wg.NoiseData
import Verif.Drv.Rx
import Verif.Drv.RxProps
import Verif.Drv.RxLive
import Verif.Drv.Tx
import Verif.Drv.TxProps
import Verif.Glue.Model
import Verif.Glue.Props
import Verif.Glue.Mqtt
import Verif.Posix.Wake
import Verif.Posix.WakeProps
import Verif.Posix.Fds
import Verif.Posix.FdsProps
import Verif.Posix.Send
import Verif.Posix.Iov
import Verif.Posix.Gai
import Verif.Posix.GaiProps
import Verif.Drv.Gem
import Verif.Drv.Line
import Verif.Drv.LineTx
import Verif.Poll.Timers
import Verif.Poll.Devices
import Verif.Drv.Cyw
import Verif.Drv.CywProps
import Verif.Drv.CywTx
import Verif.Drv.CywIoctl
import Verif.Drv.CywReq
import Verif.Tftp.Sink
import Verif.Ota.Flash
import Verif.Ota.FlashProps
import Verif.Ota.Download
import Verif.Ota.Zynq
import Verif.Mcast.Report
import Verif.Tls.Client
import Verif.Tls.ClientProps
import Verif.Tls.ClientLeak
import Verif.Tls.Server
import Verif.Tls.ServerProps
import Verif.Ssh.Server
import Verif.Ssh.Props
import Verif.Ssh.Lines
import Verif.Ssh.Listen
import Verif.Http.Response
import Verif.Http.ResponseProps
import Verif.Http.ResponseSend
import Verif.Mqtt.Client
import Verif.Mqtt.Props
import Verif.Mqtt.Hold
import Verif.Mqtt.Finds
import Verif.Tftp.Sessions
import Verif.Tftp.SessionRun
import Verif.Tftp.SessionEnd
import Verif.Tftp.Bounds
import Verif.Wg.PeerStep
import Verif.Wg.Answers
import Verif.Supp.Dot1x
import Verif.Supp.Dot1xRx
import Verif.Supp.Dot1xProps
import Verif.Supp.Dot1xEnds
import Verif.Drv.Enetc
import Verif.Http.Task
import Verif.Mqtt.Broker
import Verif.Bsd.Dgram
import Verif.Link.Dispatch
import Verif.Udp.Ttl
import Verif.Dgram.Ttl
import Verif.Opts.Props
import Verif.Dgram.Bridge
