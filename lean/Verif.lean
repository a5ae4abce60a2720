import Verif.Props.Buffer
import Verif.Props.Array
import Verif.Props.BaseN
import Verif.Props.Codec
import Verif.Props.Proto
import Verif.Props.Engine
import Verif.Props.Identity
import Verif.Props.IdentityCodec
import Verif.Props.TransportSign
import Verif.Props.Stream
import Verif.Props.Ecdh
import Verif.Props.Handshake
import Verif.Props.HonestHandshake
import Verif.Props.TransportCtx
import Verif.Props.TransportAuth
import Verif.Props.TransportErr
import Verif.Props.TransportE2E
import Verif.Props.Payload
import Verif.Props.KeyExchange
import Verif.Props.Message
import Verif.Props.MessageAuth
import Verif.Props.MessageE2E
import Verif.Props.MessageWitness
import Verif.Props.Fingerprint
import Verif.Props.KdfCipher
import Verif.Props.Storage
import Verif.Props.CtxLife
import Verif.Props.FileCrypt
import Verif.Props.FilePath
import Verif.Props.MessageValue
import Verif.Props.Account
import Verif.Props.EcdsaRaw
import Verif.Props.Memory
import Verif.Props.MemoryMore
import Verif.Props.MemoryFail
import Verif.Props.MemoryWipe
import Verif.Props.MemoryMake
import Verif.Props.MemoryRotate
import Verif.Props.VerifyMem
import Verif.Props.Compute
import Verif.Props.ComputeKeys
import Verif.Props.ComputeCtx
import Verif.Props.Schema
import Verif.Props.SharedStream
import Verif.Props.ComputeStream
import Verif.Props.StreamMem
import Verif.Props.ComputePacket
import Verif.Props.ComputeMessage
import Verif.Props.SendMem
import Verif.Props.ComputeProto
import Verif.Props.ReadBack
import Verif.Props.ComputeTransport
import Verif.Props.HandshakeMem
import Verif.Props.TransportMem
import Verif.Props.TransportRuns
import Verif.Props.ComputeText
import Verif.Props.ComputeFile
import Verif.Props.Agreement
import Verif.Props.Transcript
import Verif.Props.ExchangeAgreement
import Verif.Props.Authorship
import Verif.Props.Injection
import Verif.Props.Domains
import Verif.Props.Roles
import Verif.Props.Replay
import Verif.Props.Passphrase
import Verif.Props.HandshakeKeys
import Verif.Props.Expand
import Verif.Props.ResultCopy
import Verif.Props.CopyLoss
