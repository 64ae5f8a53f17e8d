import Verif.Lemmas.BRadix
import Verif.Lemmas.Built
import Verif.Lemmas.CSet
import Verif.Lemmas.DictOrder
import Verif.Lemmas.Doc
import Verif.Lemmas.DocLaws
import Verif.Lemmas.FilterLaws
import Verif.Lemmas.FilterTwice
import Verif.Lemmas.HSHeap
import Verif.Lemmas.Heap
import Verif.Lemmas.InterLaws
import Verif.Lemmas.ListAux
import Verif.Lemmas.LogOwn
import Verif.Lemmas.MRTree
import Verif.Lemmas.MRTreeExact
import Verif.Lemmas.MRadix
import Verif.Lemmas.MRadixList
import Verif.Lemmas.Merge
import Verif.Lemmas.MergeLaws
import Verif.Lemmas.Obj
import Verif.Lemmas.ObjHeap
import Verif.Lemmas.Own
import Verif.Lemmas.OwnDoc
import Verif.Lemmas.OwnLoop
import Verif.Lemmas.OwnProps
import Verif.Lemmas.OwnUse
import Verif.Lemmas.Parse
import Verif.Lemmas.ParseAll
import Verif.Lemmas.ParseAny
import Verif.Lemmas.ParseAttrs
import Verif.Lemmas.ParseDoc
import Verif.Lemmas.ParseKids
import Verif.Lemmas.ParseLife
import Verif.Lemmas.ParseRun
import Verif.Lemmas.PyComps
import Verif.Lemmas.PyCompsFacts
import Verif.Lemmas.PyCompsOwn
import Verif.Lemmas.PyCompsProps
import Verif.Lemmas.PyCompsRef
import Verif.Lemmas.PyCompsSim
import Verif.Lemmas.PyCompsStep
import Verif.Lemmas.PyDict
import Verif.Lemmas.PyDictRef
import Verif.Lemmas.PyDictRun
import Verif.Lemmas.PyElem
import Verif.Lemmas.PyElemInit
import Verif.Lemmas.PyElemText
import Verif.Lemmas.PyForget
import Verif.Lemmas.PyHeap
import Verif.Lemmas.PyHeapAlias
import Verif.Lemmas.PyHeapDoc
import Verif.Lemmas.PyHeapProps
import Verif.Lemmas.PyHeapReach
import Verif.Lemmas.PyHeapSafe
import Verif.Lemmas.PyHeapSim
import Verif.Lemmas.PyHeapStep
import Verif.Lemmas.PyHeapTyped
import Verif.Lemmas.PyLog
import Verif.Lemmas.PyMDict
import Verif.Lemmas.PyMDictUse
import Verif.Lemmas.PyRound
import Verif.Lemmas.PySeq
import Verif.Lemmas.PySetSlice
import Verif.Lemmas.PySlice
import Verif.Lemmas.PyTyped
import Verif.Lemmas.PyUse
import Verif.Lemmas.Query
import Verif.Lemmas.RTree
import Verif.Lemmas.RTreeBack
import Verif.Lemmas.RTreeCopy
import Verif.Lemmas.RTreeEffect
import Verif.Lemmas.RTreeLen
import Verif.Lemmas.RTreeList
import Verif.Lemmas.RTreeMap
import Verif.Lemmas.RTreeReach
import Verif.Lemmas.RTreeSet
import Verif.Lemmas.Radix
import Verif.Lemmas.RadixDrop
import Verif.Lemmas.RadixMap
import Verif.Lemmas.ReadDoc
import Verif.Lemmas.RefC
import Verif.Lemmas.Respect
import Verif.Lemmas.RoundDoc
import Verif.Lemmas.RoundEntry
import Verif.Lemmas.RoundTrip
import Verif.Lemmas.Text
import Verif.Lemmas.Validate
import Verif.Lemmas.ValidateDoc
import Verif.Lemmas.Xml
import Verif.Lemmas.XmlDoc
import Verif.Lemmas.XmlFail
import Verif.Lemmas.XmlSame
import Verif.Model.BRadix
import Verif.Model.Basic
import Verif.Model.CSet
import Verif.Model.Doc
import Verif.Model.Group
import Verif.Model.HSHeap
import Verif.Model.HSList
import Verif.Model.Heap
import Verif.Model.LogOwn
import Verif.Model.MRTree
import Verif.Model.MRadix
import Verif.Model.MWalk
import Verif.Model.Obj
import Verif.Model.ObjHeap
import Verif.Model.ObjWalk
import Verif.Model.Own
import Verif.Model.Parse
import Verif.Model.ParseLife
import Verif.Model.PyAdd
import Verif.Model.PyComps
import Verif.Model.PyDict
import Verif.Model.PyElem
import Verif.Model.PyHeap
import Verif.Model.PyLog
import Verif.Model.PyMDict
import Verif.Model.PyOpts
import Verif.Model.PySeq
import Verif.Model.PySeqCmp
import Verif.Model.RTree
import Verif.Model.Radix
import Verif.Model.RefC
import Verif.Model.Text
import Verif.Model.Validate
import Verif.Model.ValidateDoc
import Verif.Model.Xml
import Verif.Props.BRadix
import Verif.Props.Dict
import Verif.Props.DictEffect
import Verif.Props.Doc
import Verif.Props.DocCopy
import Verif.Props.DocFilter
import Verif.Props.DocFilterLaws
import Verif.Props.DocLaws
import Verif.Props.FilterLaws
import Verif.Props.FilterLess
import Verif.Props.FilterNarrow
import Verif.Props.FilterSet
import Verif.Props.FilterTwice
import Verif.Props.Group
import Verif.Props.InterLaws
import Verif.Props.Laws
import Verif.Props.ListWalk
import Verif.Props.Lists
import Verif.Props.LogOwn
import Verif.Props.MDict
import Verif.Props.MRadix
import Verif.Props.MWalk
import Verif.Props.Own
import Verif.Props.Parse
import Verif.Props.ParseAny
import Verif.Props.ParseAttrs
import Verif.Props.ParseLife
import Verif.Props.PyAgain
import Verif.Props.PyComps
import Verif.Props.PyDict
import Verif.Props.PyElem
import Verif.Props.PyFilterSum
import Verif.Props.PyForget
import Verif.Props.PyHeap
import Verif.Props.PyHeapDoc
import Verif.Props.PyLaws
import Verif.Props.PyLog
import Verif.Props.PyMDict
import Verif.Props.PyMade
import Verif.Props.PyRound
import Verif.Props.PySeq
import Verif.Props.PySeqCmp
import Verif.Props.PyTyped
import Verif.Props.Radix
import Verif.Props.RefC
import Verif.Props.Respect
import Verif.Props.RoundTrip
import Verif.Props.Sets
import Verif.Props.Text
import Verif.Props.Validate
import Verif.Props.ValidateDoc
import Verif.Props.Xml
import Verif.Props.XmlFail
import Verif.Props.XmlSame
import Verif.Spec.BRadix
import Verif.Spec.Built
import Verif.Spec.DictHist
import Verif.Spec.DictLost
import Verif.Spec.DictReach
import Verif.Spec.Doc
import Verif.Spec.Equiv
import Verif.Spec.FMap
import Verif.Spec.LogOwn
import Verif.Spec.MDict
import Verif.Spec.MRadix
import Verif.Spec.Merge
import Verif.Spec.ObjWalk
import Verif.Spec.Own
import Verif.Spec.Owner
import Verif.Spec.Parse
import Verif.Spec.ParseAny
import Verif.Spec.ParseAttrs
import Verif.Spec.ParseLife
import Verif.Spec.PyComps
import Verif.Spec.PyDict
import Verif.Spec.PyElem
import Verif.Spec.PyForget
import Verif.Spec.PyHeap
import Verif.Spec.PyHeapDoc
import Verif.Spec.PyLog
import Verif.Spec.PyMDict
import Verif.Spec.PyRound
import Verif.Spec.PySeq
import Verif.Spec.PyTyped
import Verif.Spec.PyUse
import Verif.Spec.Radix
import Verif.Spec.RoundTrip
import Verif.Spec.Seq
import Verif.Spec.Text
import Verif.Spec.Validate
import Verif.Spec.ValidateDoc
import Verif.Spec.Xml
import Verif.Spec.XmlFail
