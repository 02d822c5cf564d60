import Verif.Mem
import Verif.Logic
import Verif.Demo
import Verif.Views
import Verif.Props.Views
import Verif.Blas1
import Verif.Blas1Lemmas
import Verif.Props.Blas1
import Verif.Workspace
import Verif.Props.Workspace
import Verif.Blocks
import Verif.Props.Blocks
import Verif.Queue
import Verif.Props.Queue
import Verif.Pool
import Verif.Props.Pool
import Verif.Props.Stop
import Verif.Props.Transient
import Verif.Threaded
import Verif.Props.Threaded
import Verif.Blas2
import Verif.GemvLemmas
import Verif.GerLemmas
import Verif.Tri
import Verif.TrmvLemmas
import Verif.TrsvLemmas
import Verif.SymvLemmas
import Verif.Props.Blas2
import Verif.Kernel
import Verif.KernelLemmas
import Verif.GemmLemmas
import Verif.Props.Gemm
import Verif.Cache
import Verif.CacheLemmas
import Verif.Props.Cache
import Verif.Trxm
import Verif.TrxmLemmas
import Verif.TrsmLemmas
import Verif.TrxmNever
import Verif.Props.Trxm
import Verif.Props.Symm
import Verif.Props.Updtrm
import Verif.Props.Syr2k
import Verif.Pivot
import Verif.PivotLemmas
import Verif.PivotSortLemmas
import Verif.Props.Pivot
import Verif.MatOps
import Verif.MatOpsLemmas
import Verif.MsetLemmas
import Verif.Props.MatOps
import Verif.Props.Mset
import Verif.Schur
import Verif.PosDef
import Verif.Chol
import Verif.LapackLemmas
import Verif.CholLemmas
import Verif.Props.Chol
import Verif.Ldl
import Verif.LdlLemmas
import Verif.Props.Ldl
import Verif.Lu
import Verif.LuLemmas
import Verif.LuNopivLemmas
import Verif.Props.Lu
import Verif.Sort
import Verif.SortLemmas
import Verif.Props.Sort
import Verif.Givens
import Verif.GivensLemmas
import Verif.Props.Givens
import Verif.CholUpd
import Verif.CholUpdLemmas
import Verif.Props.CholUpd
import Verif.While
import Verif.House
import Verif.HouseLemmas
import Verif.QrSpec
import Verif.QrLemmas
import Verif.Props.House
import Verif.Sparse
import Verif.SparseSpec
import Verif.SparseLemmas
import Verif.SparseSort
import Verif.Props.Sparse
import Verif.SparseMv
import Verif.SparseMvLemmas
import Verif.SparseSolve
import Verif.Props.SparseMv
import Verif.SparseIlu
import Verif.Props.SparseIlu
import Verif.SparseAdd
import Verif.SparseAddLemmas
import Verif.SparseAddRows
import Verif.Props.SparseAdd
import Verif.Eft
import Verif.EftLemmas
import Verif.EftProd
import Verif.EftDiv
import Verif.Json
import Verif.JsonLemmas
import Verif.JsonExact
import Verif.JsonRead
import Verif.JsonMat
import Verif.Props.Eft
import Verif.Props.Json
import Verif.Mm
import Verif.MmLemmas
import Verif.Props.Mm
import Verif.Interleave
import Verif.Real
import Verif.KernelReal
import Verif.GemvReal
import Verif.TrxmReal
import Verif.SymmReal
import Verif.ParBlocks
import Verif.Props.Par
import Verif.Props.ParSide
import Verif.Inv
import Verif.TriInv
import Verif.InvLemmas
import Verif.Props.Inv
import Verif.LuInv
import Verif.LuInvLemmas
import Verif.Props.LuInv
import Verif.SpdInv
import Verif.SpdInvLemmas
import Verif.Props.SpdInv
import Verif.Qr
import Verif.QrBlkLemmas
import Verif.QrFacLemmas
import Verif.Props.Qr
import Verif.QrMult
import Verif.QrMultLemmas
import Verif.Props.QrMult
import Verif.QrBuild
import Verif.QrBuildLemmas
import Verif.Props.QrBuild
import Verif.QrSolve
import Verif.QrSolveLemmas
import Verif.Props.QrSolve
import Verif.Props.Qrt
import Verif.Compat
import Verif.CompatLemmas
import Verif.Compat2
import Verif.Props.Compat
import Verif.Props.Compat2
import Verif.Props.Compat3
import Verif.SparseSym
import Verif.SparseSymLemmas
import Verif.Props.SparseSym
import Verif.CgTheory
import Verif.SparseCg
import Verif.CgLemmas
import Verif.CgSolve
import Verif.CgLoops
import Verif.CgSolve2
import Verif.Props.SparseCg
import Verif.SparseTrmv
import Verif.SparseTrmvLemmas
import Verif.Props.SparseTrmv
import Verif.Apply
import Verif.ApplyLemmas
import Verif.Props.Apply
import Verif.SparseIchol
import Verif.SparseIcholLemmas
import Verif.Props.SparseIchol
import Verif.EBlas
import Verif.EBlasLemmas
import Verif.EBlasFast
import Verif.EBlasVec
import Verif.Props.EBlas
import Verif.Props.ETrsv
import Verif.Props.ESym
import Verif.Lq
import Verif.LqLemmas
import Verif.LqBlkLemmas
import Verif.LqFacLemmas
import Verif.Props.Lq
import Verif.LqMult
import Verif.LqMultLemmas
import Verif.Props.LqMult
import Verif.LqBuild
import Verif.LqBuildLemmas
import Verif.Props.LqBuild
import Verif.LqSolve
import Verif.Props.LqSolve
import Verif.RbtSpec
import Verif.Rbt
import Verif.RbtLemmas
import Verif.Rbt2Lemmas
import Verif.Props.Rbt
import Verif.CholPv
import Verif.CholPvLemmas
import Verif.CholPvBlk
import Verif.CholPvBlkLemmas
import Verif.Props.CholPv
import Verif.Props.CholPvBlk
import Verif.Small
import Verif.SmallLemmas
import Verif.Props.Small
import Verif.SpUtil
import Verif.Props.SpUtil
import Verif.Props.Hess
import Verif.Props.HessMult
import Verif.Props.Trd
import Verif.Props.TrdMult
import Verif.Props.Bired
import Verif.Props.BdMult
import Verif.Props.BdBuild
import Verif.Props.Ql
import Verif.Props.QlMult
import Verif.Props.QlBuild
import Verif.Props.Rq
import Verif.Props.RqMult
import Verif.Props.RqBuild
import Verif.Props.Housem
