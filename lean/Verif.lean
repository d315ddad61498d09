import Verif.Model.Poly1305
import Verif.Props.Hash
import Verif.Props.Hmac
import Verif.Props.Aes
import Verif.Props.Gcm
import Verif.Props.ChaCha20
import Verif.Props.ChaChaPoly
import Verif.Props.Field
import Verif.Props.X25519
import Verif.Props.Scalar
import Verif.Props.Ed25519
import Verif.Props.X25519Order
import Verif.Props.Ed25519Order
import Verif.Props.Forgery
import Verif.Props.ForgeryPoly
import Verif.Props.Collision
import Verif.Props.Modes
import Verif.Props.ConstantTime
import Verif.Props.X25519Peers
import Verif.Props.Ed25519Bind
import Verif.Props.GcmMisuse
import Verif.Props.GcmIdeal
import Verif.Props.CcpIdeal
import Verif.Props.Panic
import Verif.Props.Convert
import Verif.Spec.Game
import Verif.Proofs.Game
import Verif.Props.AeadGame
import Verif.Proofs.Switch
import Verif.Props.GcmPerm
import Verif.Props.PolyRare
import Verif.Props.Seek
import Verif.Props.LengthExtension
import Verif.Props.UserHash
import Verif.Props.UserCipher
import Verif.Props.GcmWeak
import Verif.Props.CcpMisuse
import Verif.Model.Aead
import Verif.Props.Aead
import Verif.Props.HkdfPrf
import Verif.Props.Session
import Verif.Props.Ed25519Forge
import Verif.Props.Ed25519Oracle
import Verif.Props.HmacIdeal
import Verif.Props.HkdfIdeal
import Verif.Props.HkdfFull
import Verif.Props.HkdfLeak
import Verif.Props.KeyExchange
import Verif.Props.ShaIdeal
import Verif.Props.Channel
import Verif.Props.HmacLong
import Verif.Props.Ed25519Long
import Verif.Props.Ed25519Strong
import Verif.Leak.EdVerify
import Verif.Proofs.LeakVerify
import Verif.Proofs.Work
import Verif.Proofs.WorkCurve
import Verif.Proofs.WorkHash
import Verif.Proofs.WorkEd
import Verif.Proofs.WorkAead
import Verif.Props.Work
import Verif.Spec.OwnGame
import Verif.Props.Ed25519Own
import Verif.Props.StreamIdeal
import Verif.Proofs.Growth
import Verif.Props.CcpCommit
import Verif.Spec.RandomNonceGame
import Verif.Props.RandomNonce
import Verif.Spec.Distinguisher
import Verif.Proofs.Reduce
import Verif.Props.Reduction
import Verif.Spec.MultiGame
import Verif.Spec.MultiDistinguisher
import Verif.Proofs.MultiGame
import Verif.Props.MultiUser
import Verif.Spec.HmacTests
import Verif.Proofs.HmacPrf
import Verif.Props.HmacPrf
import Verif.Props.HkdfReduction
import Verif.Props.SessionKeys
import Verif.Props.MultiPerm
import Verif.Props.RandomNonceCode
import Verif.Props.PanicLengths
import Verif.Props.Ed25519Multi
import Verif.Props.FreshKeys
import Verif.Props.HmacMulti
import Verif.Props.StreamReduction
import Verif.Spec.RecordGame
import Verif.Proofs.RecordGame
import Verif.Props.Records
import Verif.Spec.TunnelGame
import Verif.Props.Tunnel
import Verif.Spec.SignedGame
import Verif.Props.Signed
import Verif.Props.Search
import Verif.Props.Cases
import Verif.Spec.NetGame
import Verif.Props.Network
import Verif.Spec.LogGame
import Verif.Proofs.LogGame
import Verif.Props.Logarithm
import Verif.Spec.Draw
import Verif.Proofs.Draw
import Verif.Spec.DhGame
import Verif.Proofs.DhGame
import Verif.Props.DiffieHellman
import Verif.Spec.CipherGame
import Verif.Proofs.CipherIdeal
import Verif.Proofs.ShaCipher
import Verif.Props.ShaCipher
import Verif.Spec.PermGame
import Verif.Proofs.PermIdeal
import Verif.Proofs.ChaChaPerm
import Verif.Props.ChaChaPerm
import Verif.Spec.KeySearch
import Verif.Proofs.KeySearch
import Verif.Props.KeySearch
import Verif.Spec.MultiPermGame
import Verif.Proofs.PermUsers
import Verif.Props.ChaChaUsers
import Verif.Props.Ratchet
import Verif.Props.Committing
import Verif.Props.EncThenMac
import Verif.Props.Generator
import Verif.Proofs.ExtendIdeal
import Verif.Proofs.ExtendSha
import Verif.Props.NoExtension
import Verif.Spec.SivGame
import Verif.Proofs.DrawList
import Verif.Props.Siv
import Verif.Props.TruncatedTag
import Verif.Spec.RandomAead
import Verif.Proofs.RandomAead
import Verif.Props.RandomAead
import Verif.Spec.KeyGame
import Verif.Proofs.KeyIdeal
import Verif.Props.KeyPrivacy
import Verif.Props.ShortDigest
import Verif.Props.Commitment
import Verif.Props.MoreCases
import Verif.Props.KeyedCollision
import Verif.Spec.FileGame
import Verif.Props.Files
import Verif.Spec.Merkle
import Verif.Proofs.Merkle
import Verif.Props.Merkle
import Verif.Spec.BoxGame
import Verif.Props.SealedBox
import Verif.Spec.MerkleLog
import Verif.Proofs.MerkleLog
import Verif.Props.MerkleLog
import Verif.Spec.BoxesGame
import Verif.Proofs.Boxes
import Verif.Props.ManyBoxes
import Verif.Spec.Layers
import Verif.Proofs.Layers
import Verif.Props.Layers
import Verif.Props.HybridKeys
import Verif.Props.TwoHashes
import Verif.Props.Envelope
import Verif.Props.Login
