import Verif.Model.Base
import Verif.Model.Prims
import Verif.Model.FsCipher
import Verif.Model.Packet
import Verif.Model.Handshake
import Verif.Model.Transport
import Verif.Model.Io
import Verif.Model.Futures
import Verif.Model.Traffic
import Verif.Spec.Bip324
import Verif.Spec.Handshake
import Verif.Lemmas.Bytes
import Verif.Lemmas.Cipher
import Verif.Lemmas.Packet
import Verif.Spec.Toy
import Verif.Props.Packet
import Verif.Lemmas.Schedule
import Verif.Props.Schedule
import Verif.Props.Stream
import Verif.Lemmas.Handshake
import Verif.Props.Handshake
import Verif.Lemmas.Io
import Verif.Lemmas.IoHandshake
import Verif.Props.IoHandshake
import Verif.Lemmas.Session
import Verif.Lemmas.AsyncRead
import Verif.Props.Session
import Verif.Props.EndToEnd
import Verif.Spec.Transcript
import Verif.Lemmas.Accept
import Verif.Lemmas.HandshakeAccept
import Verif.Props.Transcript
import Verif.Props.Attacker
import Verif.Props.NoPanic
import Verif.Props.Split
import Verif.Model.TrafficIo
import Verif.Model.TrafficFutures
import Verif.Lemmas.Traffic
import Verif.Props.CancelWrite
import Verif.Lemmas.TrafficSync
import Verif.Lemmas.TrafficAsync
import Verif.Lemmas.TrafficWire
import Verif.Props.Traffic
import Verif.Lemmas.TrafficSound
import Verif.Props.Shaping
import Verif.Props.ShapedWrite
import Verif.Props.Stats
import Verif.Props.Shutdown
import Verif.Props.Locking
import Verif.Props.Draining
import Verif.Concrete.ChaCha20Poly1305
import Verif.Concrete.Hkdf
import Verif.Concrete.Secp256k1
import Verif.Concrete.Instance
import Verif.Concrete.Vectors
import Verif.Concrete.Prime
import Verif.Concrete.Field
import Verif.Concrete.Group
import Verif.Concrete.Ecdh
import Verif.Props.KeyExchange
import Verif.Props.V1
import Verif.Props.Accounting
import Verif.Props.Bounded
import Verif.Props.Observer
import Verif.Props.Padding
import Verif.Props.Interop
import Verif.Props.Ratio
import Verif.Spec.Reference
import Verif.Lemmas.Reference
import Verif.Props.Reference
import Verif.Spec.Judge
import Verif.Lemmas.Judge
import Verif.Props.Differential
import Verif.Model.SansIo
import Verif.Props.SansIo
import Verif.Props.TakeApart
import Verif.Model.Fuzz
import Verif.Props.Fuzz
import Verif.Model.AnyTransport
import Verif.Lemmas.AnyTransport
import Verif.Props.AnyTransport
import Verif.Concrete.Poly1305
import Verif.Lemmas.Ask
import Verif.Props.Forgery
import Verif.Lemmas.Segments
import Verif.Model.BufReader
import Verif.Lemmas.Buffered
import Verif.Props.BufReader
import Verif.Lemmas.Fuel
import Verif.Lemmas.ScriptConn
import Verif.Props.AnyScript
import Verif.Model.Halves
import Verif.Lemmas.Halves
import Verif.Lemmas.HalvesRun
import Verif.Props.Halves
import Verif.Model.Errors
import Verif.Spec.Errors
import Verif.Lemmas.Errors
import Verif.Props.Errors
import Verif.Spec.Link
import Verif.Lemmas.Link
import Verif.Props.Link
import Verif.Spec.ShapedLink
import Verif.Lemmas.ShapedLink
import Verif.Lemmas.ShapedLane
import Verif.Lemmas.ShapedLive
import Verif.Lemmas.ShapedJam
import Verif.Props.ShapedLink
import Verif.Model.Tests
import Verif.Props.Tests
import Verif.Spec.Secrecy
import Verif.Props.Secrecy
import Verif.Props.HalvesAnswers
import Verif.Spec.AsyncLink
import Verif.Lemmas.AsyncLink
import Verif.Lemmas.AsyncLane
import Verif.Lemmas.AsyncJam
import Verif.Props.AsyncLink
import Verif.Model.UnitTests
import Verif.Props.UnitTests
import Verif.Model.Clone
import Verif.Props.Clone
import Verif.Model.Cost
import Verif.Lemmas.Cost
import Verif.Props.Cost
import Verif.Model.Timed
import Verif.Lemmas.Timed
import Verif.Props.Timed
import Verif.Model.Relaxed
import Verif.Props.Relaxed
import Verif.Model.PairTests
import Verif.Props.PairTests
import Verif.Model.BufExample
import Verif.Props.ReadCalls
import Verif.Props.ReadCost
import Verif.Props.BufExample
import Verif.Props.Chance
import Verif.Model.BufWriter
import Verif.Lemmas.BufWriter
import Verif.Props.BufWriter
import Verif.Model.PollWriter
import Verif.Props.PollWriter
import Verif.Props.Stranger
import Verif.Props.Middle
import Verif.Props.MiddleChance
import Verif.Props.Relay
import Verif.Props.Separate
import Verif.Props.Oracle
import Verif.Props.Mismatch
import Verif.Props.Same
import Verif.Props.Resume
import Verif.Props.Deny
import Verif.Props.Cut
import Verif.Props.Known
import Verif.Model.QuickStart
import Verif.Props.Quick
import Verif.Props.Determined
import Verif.Props.Long
import Verif.Model.ShapedStart
import Verif.Props.ShapedStart
import Verif.Props.ShapedStartAsync
import Verif.Props.Silence
