import Verif.Props.Codec
import Verif.Props.Sack
import Verif.Props.Splay
import Verif.Props.PacketNumber
import Verif.Props.Hash
import Verif.Props.Pacing
import Verif.Props.Timing
import Verif.Props.NewReno
import Verif.Props.Stream
import Verif.Props.StreamLimits
import Verif.Props.StreamFrame
import Verif.Props.StreamSend
import Verif.Props.StreamCredit
import Verif.Props.Ack
import Verif.Props.Frames
import Verif.Props.TransportChecks
import Verif.Props.TransportParams
import Verif.Props.TokenStore
import Verif.Props.DataRepeat
import Verif.Props.PeerCids
import Verif.Props.LocalCids
import Verif.Props.PathValidation
import Verif.Props.Datagram
import Verif.Props.AckSchedule
import Verif.Props.LostFrames
import Verif.Props.LoadBalancer
import Verif.Props.PacketHeader
import Verif.Props.Train
import Verif.Props.Admission
import Verif.Props.Amplification
import Verif.Props.Stateless
import Verif.Props.KeyUpdate
import Verif.Props.Huffman
import Verif.Props.Qpack
import Verif.Props.H3Data
import Verif.Props.H3Control
import Verif.Props.Closing
import Verif.Props.LossDetect
import Verif.Props.Uri
import Verif.Props.WebPath
import Verif.Props.TicketStore
import Verif.Props.H3Datagram
import Verif.Props.Capsule
import Verif.Props.Mtu
import Verif.Props.VersionChoice
import Verif.Props.Wake
import Verif.Props.Sooner
import Verif.Props.Nonce
import Verif.Props.TlsStream
import Verif.Props.Buffers
import Verif.Props.WebServer
import Verif.Props.MultiPath
import Verif.Props.StreamEnd
import Verif.Props.Config
import Verif.Props.EarlyData
import Verif.Props.Prague
import Verif.Props.FastCc
import Verif.Props.ByteBuffer
import Verif.Props.KeyLimit
import Verif.Props.SpinBit
import Verif.Props.PathMarks
import Verif.Props.Unreachable
import Verif.Props.PreferredMove
import Verif.Props.SlowStart
import Verif.Props.BackupPath
