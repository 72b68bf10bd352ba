import Verif.Props.Encryption
import Verif.Props.Addition
import Verif.Props.Signum
import Verif.Props.Lookup
import Verif.Props.Multiplication
import Verif.Props.Naf
import Verif.Props.ScalarMul
import Verif.Props.NN
import Verif.Props.Program
import Verif.Props.Schedule
import Verif.Props.Plain
import Verif.Props.Builds
import Verif.Props.Keys
import Verif.Props.Accounting
import Verif.Props.Misc
import Verif.Props.Weights
import Verif.Props.Depth
import Verif.Props.DepthExact
import Verif.Props.Lengths
import Verif.Props.Demos
import Verif.Props.WeightsMul
import Verif.Props.Chains
import Verif.Props.ScalarCost
import Verif.Props.Experiments
import Verif.Props.WorstCase
import Verif.Props.Failure
import Verif.Props.Choice
import Verif.Props.LogLevel
import Verif.Props.Runs
import Verif.Props.Plan
import Verif.Props.Format
import Verif.Props.Interleaving
import Verif.Fine.Time
import Verif.Fine.Span
import Verif.SpecSpan
import Verif.Fine.SpanProg
import Verif.Fine.WidthOps
import Verif.Props.ParallelTime
import Verif.Model.Tests
import Verif.Proof.Tests
import Verif.Props.Tests
import Verif.Model.KtScript
import Verif.Proof.KtScript
import Verif.Props.KtScript
import Verif.Proof.NafDebug
import Verif.Props.NafDebug
import Verif.Proof.NafTop
import Verif.Props.NafTop
import Verif.Proof.NafLocal
import Verif.Props.NafLocal
import Verif.Props.NafWeight
import Verif.Proof.ProductTop
import Verif.Proof.ProductTopL
import Verif.Proof.ProductTopR
import Verif.Props.ProductTop
import Verif.Model.ChainScript
import Verif.Proof.ChainScript
import Verif.Props.ChainScript
import Verif.Model.ChainText
import Verif.Proof.ChainText
import Verif.Proof.ChainFile
import Verif.Proof.ChainLog
import Verif.Props.ChainText
import Verif.SpecSearch
import Verif.Proof.ChainComplete
import Verif.Proof.ChainWidth
import Verif.Proof.ChainLevels
import Verif.Props.ChainComplete
import Verif.Proof.AddAny
import Verif.Proof.AnyOps
import Verif.Proof.AnyProgram
import Verif.Props.AnyContents
import Verif.Model.Readme
import Verif.Props.Readme
import Verif.Proof.EdgeInstance
import Verif.Props.Noisy
import Verif.Props.Tight
import Verif.Props.Budget
import Verif.Props.BudgetNet
import Verif.Model.AscStatic
import Verif.Proof.AnyTable
import Verif.Props.AscStatic
import Verif.Model.Tfhe
import Verif.Proof.Tfhe
import Verif.Props.Tfhe
import Verif.Props.Tables
import Verif.SpecMerged
import Verif.Proof.AddExact
import Verif.Proof.Merged
import Verif.Proof.MergedMul
import Verif.Proof.MergedShift
import Verif.Proof.WeightMerged
import Verif.Proof.FastMul
import Verif.Proof.FastSound
import Verif.Proof.FastInst
import Verif.Proof.FastTableA
import Verif.Proof.FastTableB
import Verif.Proof.FastTableC
import Verif.Proof.FastAll
import Verif.Props.Merged
import Verif.Proof.MergedOps
import Verif.Props.MergedOps
import Verif.Props.MergedNoise
import Verif.SpecErrors
import Verif.Proof.Errors
import Verif.Proof.ErrorsProb
import Verif.Props.Errors
import Verif.Model.GenChains
import Verif.Props.GenChains
import Verif.Props.ChainDuplicates
import Verif.Proof.WeightsRows
import Verif.Props.WeightsZeros
import Verif.Props.WeightsSquZeros
