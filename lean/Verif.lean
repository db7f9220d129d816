import Verif.Basic
import Verif.Model.Lib
import Verif.Model.Aes
import Verif.Model.Rc2
import Verif.Model.Rc4
import Verif.Model.Rc5
import Verif.Props.Block
import Verif.Props.Rc4
import Verif.Props.Rc5
import Verif.Props.Rc2
import Verif.Props.Rc5Const
import Verif.Props.Aes
import Verif.Props.Sha
import Verif.Props.Md
import Verif.Props.Big
import Verif.Props.Rsa
import Verif.Props.Oaep
import Verif.Props.Asn1
import Verif.Props.Pem
import Verif.Props.Keys
import Verif.Props.BigExact
import Verif.Props.Halts
import Verif.Props.Modes
import Verif.Props.Extend
import Verif.Props.RsaExact
import Verif.Props.Asn1Errors
import Verif.Props.PemErrors
import Verif.Props.KeyErrors
import Verif.Props.Collide
import Verif.Props.Collisions
import Verif.Props.Release
import Verif.Props.NoOverflow
import Verif.Props.ReleaseMore
import Verif.Props.Effects
import Verif.Props.BigHistory
import Verif.Props.Scheme
import Verif.Props.Text
import Verif.Props.OaepErrors
import Verif.Props.Rc2Exact
import Verif.Props.RsaRange
import Verif.Props.Asn1Width
import Verif.Props.MdWidth
import Verif.Props.PemFmt
import Verif.Props.Rc4Exact
import Verif.Props.PaddingOracle
import Verif.Props.RsaAttacks
import Verif.Props.RsaFixed
import Verif.Props.Rc5Rounds
import Verif.Props.Work
import Verif.Props.Manger
import Verif.Props.KeyGen
import Verif.Props.AesTrace
import Verif.Props.Asn1Cost
import Verif.Props.KeyChecks
import Verif.Props.PredictableIv
import Verif.Props.Split
import Verif.Props.OaepWidth
import Verif.Props.FixedPoint
import Verif.Props.ConstantMask
import Verif.Props.HighBits
import Verif.Props.Parity
import Verif.Props.LastBit
import Verif.Props.Cycle
import Verif.Props.Birthday
import Verif.Props.Modified
import Verif.Props.OaepTrace
import Verif.Props.Related
import Verif.Props.BadPrimes
import Verif.Props.Multi
import Verif.Props.Space
import Verif.Props.Rc4Fms
import Verif.Props.Rc4Period
import Verif.Props.Unwind
import Verif.Props.OtherModes
import Verif.Props.Rc5Trace
import Verif.Props.ChosenPrefix
import Verif.Props.Debug
import Verif.Props.AesLinear
import Verif.Props.HashIter
import Verif.Props.Wiener
import Verif.Props.RsaFactor
import Verif.Props.AesDiffusion
import Verif.Props.RsaTrace
import Verif.Props.Md2Trace
import Verif.Props.Rc2Trace
import Verif.Props.Rc4Trace
import Verif.Props.RsaJacobi
import Verif.Props.RsaWorks
import Verif.Props.Counting
import Verif.Props.KeySigns
import Verif.Validation.Hashes
import Verif.Validation.RsaBig
import Verif.Validation.Tests
