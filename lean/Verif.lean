import Verif.Lemmas.Arith
import Verif.Lemmas.Automorphism
import Verif.Lemmas.Barrett
import Verif.Lemmas.Bat
import Verif.Lemmas.BatchVmap
import Verif.Lemmas.BatchVmapRun
import Verif.Lemmas.Binary64
import Verif.Lemmas.BitReversal
import Verif.Lemmas.BlindRotate
import Verif.Lemmas.CkksControl
import Verif.Lemmas.CkksFloatNum
import Verif.Lemmas.CkksKeys
import Verif.Lemmas.CkksKsk
import Verif.Lemmas.CkksLift
import Verif.Lemmas.CkksMath
import Verif.Lemmas.CkksObj
import Verif.Lemmas.CkksRelin
import Verif.Lemmas.CkksRotObj
import Verif.Lemmas.CkksRotObjRep
import Verif.Lemmas.CkksRotate
import Verif.Lemmas.CkksSwitch
import Verif.Lemmas.Crt
import Verif.Lemmas.Decomposition
import Verif.Lemmas.EcArith
import Verif.Lemmas.EcBatch
import Verif.Lemmas.EcBatchConv
import Verif.Lemmas.EcChunks
import Verif.Lemmas.EcCurveOps
import Verif.Lemmas.EcEdwards
import Verif.Lemmas.EcGenerator
import Verif.Lemmas.EcGroup
import Verif.Lemmas.EcMul
import Verif.Lemmas.EcPoint
import Verif.Lemmas.EcPointInv
import Verif.Lemmas.EcPointRun
import Verif.Lemmas.EcPrime
import Verif.Lemmas.EcProjective
import Verif.Lemmas.EcReduce
import Verif.Lemmas.EcRns
import Verif.Lemmas.EcRnsAdd
import Verif.Lemmas.EcRnsAddWitness
import Verif.Lemmas.EcRnsAddWitness2
import Verif.Lemmas.EcRnsCurve
import Verif.Lemmas.EcRnsExact
import Verif.Lemmas.EcRnsFast
import Verif.Lemmas.EcRnsOps
import Verif.Lemmas.EcRnsRed
import Verif.Lemmas.EcRnsRun
import Verif.Lemmas.EcRnsRunA
import Verif.Lemmas.EcRnsRunB
import Verif.Lemmas.EcRnsRunData
import Verif.Lemmas.EcRnsTable
import Verif.Lemmas.EcRnsWitness
import Verif.Lemmas.EcRnsXRun
import Verif.Lemmas.EcRnsXRunA
import Verif.Lemmas.EcRnsXRunB
import Verif.Lemmas.EcRnsXRunData
import Verif.Lemmas.EcRoll
import Verif.Lemmas.Encode
import Verif.Lemmas.EncodeFloat
import Verif.Lemmas.EncodeFloatNum
import Verif.Lemmas.EncodeFloatSpec
import Verif.Lemmas.Encoding
import Verif.Lemmas.FloatDot
import Verif.Lemmas.Gadget
import Verif.Lemmas.Game
import Verif.Lemmas.GamePk
import Verif.Lemmas.Lut
import Verif.Lemmas.MatrixBat
import Verif.Lemmas.MatrixUtils
import Verif.Lemmas.MsmObject
import Verif.Lemmas.MulKernels
import Verif.Lemmas.MulKernelsRelin
import Verif.Lemmas.Negacyclic
import Verif.Lemmas.NttBat
import Verif.Lemmas.NttCore
import Verif.Lemmas.NttCpu
import Verif.Lemmas.Pippenger
import Verif.Lemmas.PippengerArr
import Verif.Lemmas.PippengerArrMsm
import Verif.Lemmas.PippengerArrX
import Verif.Lemmas.PippengerXyzz
import Verif.Lemmas.Pocklington
import Verif.Lemmas.PolymulKernel
import Verif.Lemmas.PrimeCheck
import Verif.Lemmas.PyTree
import Verif.Lemmas.RelinBatch
import Verif.Lemmas.RescaleArr
import Verif.Lemmas.Rgsw
import Verif.Lemmas.Rlwe
import Verif.Lemmas.RnsNtt
import Verif.Lemmas.RnsNttRun
import Verif.Lemmas.RnsScript
import Verif.Lemmas.Rotation
import Verif.Lemmas.Slots
import Verif.Lemmas.Small
import Verif.Lemmas.SpecialFft
import Verif.Lemmas.TestPolynomial
import Verif.Lemmas.TypeConverters
import Verif.Lemmas.UniformTail
import Verif.Model.Arith
import Verif.Model.Automorphism
import Verif.Model.Barrett
import Verif.Model.Bat
import Verif.Model.BatGrid
import Verif.Model.BatchVmap
import Verif.Model.BigInteger
import Verif.Model.BitReversal
import Verif.Model.Bootstrap
import Verif.Model.CkksCircuit
import Verif.Model.CkksFloat
import Verif.Model.CkksKeys
import Verif.Model.CkksMath
import Verif.Model.CkksMul
import Verif.Model.CkksObj
import Verif.Model.CkksRotObj
import Verif.Model.CkksRotate
import Verif.Model.CkksSession
import Verif.Model.Crt
import Verif.Model.Decomposition
import Verif.Model.Device
import Verif.Model.EcBatch
import Verif.Model.EcChunks
import Verif.Model.EcCurve
import Verif.Model.EcField
import Verif.Model.EcHelpers
import Verif.Model.EcPoint
import Verif.Model.EcPointSpec
import Verif.Model.EcRns
import Verif.Model.Encode
import Verif.Model.EncodeFloat
import Verif.Model.EncodeFloatSpec
import Verif.Model.Encoding
import Verif.Model.FieldClasses
import Verif.Model.FloatDot
import Verif.Model.Gadget
import Verif.Model.Helpers
import Verif.Model.JaxiteBool
import Verif.Model.LazyMain
import Verif.Model.LiftObj
import Verif.Model.Lut
import Verif.Model.Lwe
import Verif.Model.MatrixBat
import Verif.Model.MatrixUtils
import Verif.Model.MsmObject
import Verif.Model.MulKernels
import Verif.Model.NttBat
import Verif.Model.NttCpu
import Verif.Model.NttCpuCache
import Verif.Model.Pippenger
import Verif.Model.PippengerArr
import Verif.Model.PolymulKernel
import Verif.Model.Printing
import Verif.Model.PyTree
import Verif.Model.RandomBounds
import Verif.Model.RelinBatch
import Verif.Model.Rescale
import Verif.Model.RescaleArr
import Verif.Model.Rlwe
import Verif.Model.RlweRandom
import Verif.Model.RnsJnp
import Verif.Model.RnsNtt
import Verif.Model.RnsProgram
import Verif.Model.RnsScript
import Verif.Model.Session
import Verif.Model.TestUtils
import Verif.Model.TypeConverters
import Verif.Model.X64
import Verif.Model.X64Barrett
import Verif.Model.X64Bootstrap
import Verif.Model.X64Matmul
import Verif.Props.Automorphism
import Verif.Props.Barrett
import Verif.Props.Bat
import Verif.Props.BatGrid
import Verif.Props.BatchVmap
import Verif.Props.BigInteger
import Verif.Props.BitReversal
import Verif.Props.BlindRotate
import Verif.Props.Bootstrap
import Verif.Props.CkksCircuit
import Verif.Props.CkksControl
import Verif.Props.CkksEncrypt
import Verif.Props.CkksFloat
import Verif.Props.CkksKsk
import Verif.Props.CkksMath
import Verif.Props.CkksObj
import Verif.Props.CkksRelin
import Verif.Props.CkksRotObj
import Verif.Props.CkksRotate
import Verif.Props.CkksSamplers
import Verif.Props.CkksSession
import Verif.Props.CkksSlots
import Verif.Props.CkksSwitch
import Verif.Props.CkksTensor
import Verif.Props.Confidential
import Verif.Props.ConfidentialCkks
import Verif.Props.Conjugate
import Verif.Props.Crt
import Verif.Props.Decomposition
import Verif.Props.Device
import Verif.Props.EcBatch
import Verif.Props.EcChunks
import Verif.Props.EcEdwards
import Verif.Props.EcHelpers
import Verif.Props.EcPoint
import Verif.Props.EcProjective
import Verif.Props.EcRns
import Verif.Props.EcRnsAddFalse
import Verif.Props.EcRnsCurve
import Verif.Props.EcTwistEdge
import Verif.Props.EcXyzz
import Verif.Props.Encode
import Verif.Props.EncodeFloat
import Verif.Props.Encoding
import Verif.Props.FieldClasses
import Verif.Props.FloatDot
import Verif.Props.Gadget
import Verif.Props.Helpers
import Verif.Props.JaxiteBool
import Verif.Props.LazyMain
import Verif.Props.LiftObj
import Verif.Props.Lut
import Verif.Props.Lwe
import Verif.Props.MatrixBat
import Verif.Props.ModSwitchTail
import Verif.Props.MsmObject
import Verif.Props.MulKernels
import Verif.Props.NttBat
import Verif.Props.NttCpu
import Verif.Props.NttCpuCache
import Verif.Props.Pippenger
import Verif.Props.PippengerArr
import Verif.Props.PippengerRns
import Verif.Props.PippengerRnsRun
import Verif.Props.PippengerRnsXyzz
import Verif.Props.PippengerRnsXyzzRun
import Verif.Props.PippengerXyzz
import Verif.Props.Polynomial
import Verif.Props.Printing
import Verif.Props.PyTree
import Verif.Props.RandomBounds
import Verif.Props.RelinBatch
import Verif.Props.Rescale
import Verif.Props.RescaleArr
import Verif.Props.Rgsw
import Verif.Props.RgswMasks
import Verif.Props.RgswNoise
import Verif.Props.RgswRecovery
import Verif.Props.Rlwe
import Verif.Props.RlweRandom
import Verif.Props.RnsJnp
import Verif.Props.RnsNtt
import Verif.Props.RnsProgram
import Verif.Props.RnsProgramInt
import Verif.Props.RnsScript
import Verif.Props.Session
import Verif.Props.SharedSeed
import Verif.Props.SlotAlgebra
import Verif.Props.TestPolynomial
import Verif.Props.TestUtils
import Verif.Props.TypeConverters
import Verif.Props.X64
import Verif.Props.X64Barrett
import Verif.Props.X64Bootstrap
import Verif.Props.X64Circuit
import Verif.Props.X64Matmul
