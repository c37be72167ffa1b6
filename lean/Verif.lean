import Verif.Adapter.History
import Verif.Adapter.Mixed
import Verif.Adapter.Model
import Verif.Adapter.PqIter
import Verif.Adapter.Spec
import Verif.Adapter.Spec2
import Verif.Adapter.Time
import Verif.Adapter.Time2
import Verif.Adapter.Time3
import Verif.Adapter.Time4
import Verif.Algo.Alias
import Verif.Algo.BSearch
import Verif.Algo.Base
import Verif.Algo.Cost
import Verif.Algo.Heap
import Verif.Algo.InPlace
import Verif.Algo.Link
import Verif.Algo.MinMax
import Verif.Algo.Modify
import Verif.Algo.ModifySpec
import Verif.Algo.ModifySpec2
import Verif.Algo.ModifySpec3
import Verif.Algo.NonMod
import Verif.Algo.NonModSpec
import Verif.Algo.NonModSpec2
import Verif.Algo.Partition
import Verif.Algo.SetOp
import Verif.Algo.Shuffle
import Verif.Algo.Sort
import Verif.Algo.SortCost
import Verif.Algo.SortExact
import Verif.Algo.SortSpec
import Verif.Algo.SortSpec2
import Verif.Algo.SortSpec3
import Verif.Core.Bad
import Verif.Core.Cost
import Verif.Core.Elem
import Verif.Core.Err
import Verif.Core.Mem
import Verif.Core.Never
import Verif.Core.Safe
import Verif.Core.Same
import Verif.Core.Sched
import Verif.Core.Sep
import Verif.Core.Tac
import Verif.Core.Ty
import Verif.Core.Within
import Verif.Deq.Amort
import Verif.Deq.Bugs
import Verif.Deq.History
import Verif.Deq.Model
import Verif.Deq.Rep
import Verif.Deq.Spec
import Verif.Deq.Spec2
import Verif.Deq.Spec3
import Verif.Deq.Starve
import Verif.Deq.Stay
import Verif.Deq.Time
import Verif.Deq.Time2
import Verif.Deq.Wide
import Verif.IAlgo.BSearch
import Verif.IAlgo.BSearchRef
import Verif.IAlgo.Base
import Verif.IAlgo.Forms
import Verif.IAlgo.Heap
import Verif.IAlgo.HeapRef
import Verif.IAlgo.InPlace
import Verif.IAlgo.MinMax
import Verif.IAlgo.MinMaxRef
import Verif.IAlgo.Modify
import Verif.IAlgo.ModifyRef
import Verif.IAlgo.NonMod
import Verif.IAlgo.NonModRef
import Verif.IAlgo.Partition
import Verif.IAlgo.PartitionRef
import Verif.IAlgo.Range
import Verif.IAlgo.Refine
import Verif.IAlgo.SetOp
import Verif.IAlgo.SetOpRef
import Verif.IAlgo.Sort
import Verif.IAlgo.SortG
import Verif.IAlgo.SortRef
import Verif.IAlgo.Sources
import Verif.IAlgo.Spec
import Verif.IAlgo.Tac
import Verif.IAlgo.TreeView
import Verif.IAlgo.Views
import Verif.Info.Model
import Verif.Info.Own
import Verif.Info.OwnCopy
import Verif.Info.OwnList
import Verif.Info.OwnMove
import Verif.Info.OwnRemove
import Verif.Info.OwnS
import Verif.Info.OwnSList
import Verif.Info.OwnSRemove
import Verif.Info.OwnSSort
import Verif.Info.OwnSort
import Verif.Info.OwnSpec
import Verif.Iter.Client
import Verif.Iter.History
import Verif.Iter.InsertRange
import Verif.Iter.Model
import Verif.Iter.Ops
import Verif.Iter.Ring
import Verif.Iter.Sources
import Verif.Iter.Spec
import Verif.Iter.Vars
import Verif.Iter.World
import Verif.List.Basic
import Verif.List.History
import Verif.List.Model
import Verif.List.OwnRemove
import Verif.List.Rep
import Verif.List.SelfMerge
import Verif.List.Sort
import Verif.List.Spec
import Verif.List.Spec2
import Verif.List.Spec3
import Verif.List.Spec4
import Verif.List.Time
import Verif.List.Time2
import Verif.List.Time3
import Verif.List.Time4
import Verif.Own.Model
import Verif.Own.Prim
import Verif.Own.Sim
import Verif.Own.SimAll
import Verif.Own.Special
import Verif.Own.Tac
import Verif.Own.Transfer
import Verif.Pair.Model
import Verif.Pair.Spec
import Verif.Prime.Model
import Verif.Prime.Spec
import Verif.Props.CAccess
import Verif.Props.CAdTime
import Verif.Props.CAdapter
import Verif.Props.CAlgoCost
import Verif.Props.CAlgoNull
import Verif.Props.CAlias
import Verif.Props.CAssoc
import Verif.Props.CCheck
import Verif.Props.CCost
import Verif.Props.CDeque
import Verif.Props.CDequeAlias
import Verif.Props.CForms
import Verif.Props.CInPlace
import Verif.Props.CInPlaceIter
import Verif.Props.CInfo
import Verif.Props.CInsertRange
import Verif.Props.CIter
import Verif.Props.CIterAlgo
import Verif.Props.CIterAll
import Verif.Props.CIterModify
import Verif.Props.CIterSort
import Verif.Props.CIterTree
import Verif.Props.CList
import Verif.Props.CListTime
import Verif.Props.CModify
import Verif.Props.CNull
import Verif.Props.COwn
import Verif.Props.COwnAll
import Verif.Props.COwnList
import Verif.Props.COwnMove
import Verif.Props.COwnRemove
import Verif.Props.COwnSList
import Verif.Props.COwnSort
import Verif.Props.CPair
import Verif.Props.CPq
import Verif.Props.CPrime
import Verif.Props.CRefuse
import Verif.Props.CResult
import Verif.Props.CRing
import Verif.Props.CSList
import Verif.Props.CSListTime
import Verif.Props.CScarce
import Verif.Props.CSearch
import Verif.Props.CSelf
import Verif.Props.CShuffle
import Verif.Props.CSort
import Verif.Props.CSpace
import Verif.Props.CStarve
import Verif.Props.CStay
import Verif.Props.CSteps
import Verif.Props.CTime
import Verif.Props.CTree
import Verif.Props.CTreeStarve
import Verif.Props.CVector
import Verif.Props.CVerify
import Verif.Props.CWide
import Verif.SList.History
import Verif.SList.Model
import Verif.SList.OwnRemove
import Verif.SList.Rep
import Verif.SList.SelfMerge
import Verif.SList.Sort
import Verif.SList.Spec
import Verif.SList.Spec2
import Verif.SList.Spec3
import Verif.SList.Time
import Verif.SList.Time2
import Verif.SList.Time3
import Verif.SList.Time4
import Verif.Spec.Adapter
import Verif.Spec.Assoc
import Verif.Spec.Heap
import Verif.Spec.Iter
import Verif.Spec.Order
import Verif.Spec.Raised
import Verif.Spec.RbCheck
import Verif.Spec.Rearrange
import Verif.Spec.Search
import Verif.Spec.SetOp
import Verif.Tree.Assoc
import Verif.Tree.Bare
import Verif.Tree.Del
import Verif.Tree.Edit
import Verif.Tree.Erase
import Verif.Tree.Fuel
import Verif.Tree.History
import Verif.Tree.Ins
import Verif.Tree.Insert
import Verif.Tree.Look
import Verif.Tree.Model
import Verif.Tree.Nav
import Verif.Tree.Peek
import Verif.Tree.Plan
import Verif.Tree.RB
import Verif.Tree.Range
import Verif.Tree.Rep
import Verif.Tree.Rot
import Verif.Tree.SelfRange
import Verif.Tree.SetMap
import Verif.Tree.Starve
import Verif.Tree.Verify
import Verif.Tree.Verify2
import Verif.Tree.Whole
import Verif.Vec.Amort
import Verif.Vec.Bugs
import Verif.Vec.Bugs2
import Verif.Vec.History
import Verif.Vec.Model
import Verif.Vec.Rep
import Verif.Vec.Spec
import Verif.Vec.Spec2
import Verif.Vec.Spec3
import Verif.Vec.Spec4
import Verif.Vec.Spec5
import Verif.Vec.Starve
import Verif.Vec.Stay
import Verif.Vec.Time
import Verif.Vec.Time2
import Verif.Vec.Wide
