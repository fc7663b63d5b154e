import Verif.Props.MerkleDamgard
import Verif.Props.MerkleDamgard2
import Verif.Props.Keccak
import Verif.Props.Sponge
import Verif.Props.Sponge2
import Verif.Props.Blake2b
import Verif.Props.Ripemd
import Verif.Props.Tiger
import Verif.Props.Modes
import Verif.Props.Pack
import Verif.Props.Util
import Verif.Props.Constants
import Verif.Props.Crc
import Verif.Props.Reset
import Verif.Props.Output
import Verif.Props.Pedersen
import Verif.Props.GroupHash
import Verif.Props.H2F2
import Verif.Props.H2CG2
import Verif.Props.PoseidonWords
import Verif.Props.PoseidonGen
import Verif.Props.Grain
import Verif.Props.PoseidonTables
import Verif.Props.PoseidonReset
import Verif.Props.ReinforcedConcrete
import Verif.Props.GrainComplete
import Verif.Props.KeccakAsm
import Verif.Props.Reductions
import Verif.Props.H2fSuites
import Verif.Props.H2CCurve
import Verif.Props.H2CExc
import Verif.Props.NoFault
import Verif.Props.Crc2
import Verif.Model.WordOps
import Verif.Spec.WordOps
import Verif.Proof.WordOps
import Verif.Props.WordOps
import Verif.Proof.SpongeBits
import Verif.Props.SpongeBits
import Verif.Validation.Basic
import Verif.Validation.Vectors
import Verif.Validation.Programs
import Verif.Validation.H2F
import Verif.Validation.Groups
import Verif.Validation.Misc
import Verif.Validation.Poseidon
import Verif.Validation.H2C
import Verif.Props.Crc3
import Verif.Props.Extension
import Verif.Spec.Isa
import Verif.Proof.Isa
import Verif.Props.Isa
import Verif.Proof.IsaScalar
import Verif.Props.IsaScalar
import Verif.Props.Wrap
import Verif.Props.Pedersen2
import Verif.Model.Circuit
import Verif.Props.Circuit
import Verif.Spec.Lossy
import Verif.Proof.Lossy
import Verif.Proof.LossyHashes
import Verif.Props.Lossy
import Verif.Spec.BlsGroup
import Verif.Proof.Eisenstein
import Verif.Proof.CurveGroup
import Verif.Proof.CurveTrace
import Verif.Proof.CurveStructure
import Verif.Proof.CurveOrder
import Verif.Props.H2CSubgroup
import Verif.Spec.PoseidonActive
import Verif.Proof.Observable
import Verif.Props.PoseidonActive
import Verif.Spec.IdealCipher
import Verif.Proof.IdealCipher
import Verif.Proof.BirthdayBound
import Verif.Proof.Walk
import Verif.Props.IdealCipher
import Verif.Proof.SpongeBound
import Verif.Props.RandomPermutation
import Verif.Props.BlakeIdeal
import Verif.Model.Overload
import Verif.Proof.Overload
import Verif.Props.Overload
import Verif.Props.RandomPoseidon
import Verif.Spec.RandomOracle
import Verif.Proof.RandomOracle
import Verif.Props.XmdUniform
import Verif.Props.GroupHashRandom
import Verif.Proof.JubjubPrime
import Verif.Props.PedersenRandom
import Verif.Props.Multicollision
import Verif.Props.FixedPoints
import Verif.Props.Leakage
import Verif.Props.RcBuckets
import Verif.Props.Indifferentiable
import Verif.Props.Distinguishable
import Verif.Props.PoseidonExtension
import Verif.Props.BlakeIndifferentiable
import Verif.Props.PrefixMac
import Verif.Props.ChopIndifferentiable
import Verif.Props.PoseidonMac
import Verif.Props.PoseidonBlock
import Verif.Spec.OracleIndiff
import Verif.Proof.ChainIndiff
import Verif.Proof.ChainIndiffMain
import Verif.Proof.ChainIndiffCount
import Verif.Proof.OracleChange
import Verif.Props.XmdIndifferentiable
import Verif.Proof.SecondPreimage
import Verif.Props.SecondPreimage
import Verif.Spec.OracleFinder
import Verif.Proof.OracleFinder
import Verif.Proof.H2CFibre
import Verif.Proof.H2CRandom
import Verif.Props.XmdFinder
import Verif.Props.HashToCurveRandom
import Verif.Props.KnownCollisions
import Verif.Props.DigestSizes
import Verif.Props.PedersenMac
import Verif.Props.Birthday
import Verif.Props.BirthdaySponge
import Verif.Props.BirthdayPoseidon
import Verif.Props.LongMessage
import Verif.Props.OwnCipher
import Verif.Props.PackUnits
import Verif.Props.OwnCipherBirthday
import Verif.Props.UserMD
import Verif.Props.FeedForwardHash
import Verif.Props.UserDaviesMeyer
import Verif.Props.UserBirthday
import Verif.Props.UserSponge
import Verif.Props.Targets
