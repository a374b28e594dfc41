import Verif.Segmentation.Model

/-!
# Programs that construct segmentations and add them to a loader

`Segmentation(...)` stores references to the bitmasks and their arrays (`annotation.py` 41-91) and may write to the arrays;
`Loader.add_data` reads the arrays when it is called (`loader.py` 68-94). A program is a sequence of constructions and calls
of `add_data` in any order, over one heap of arrays.
-/

namespace Verif.Segmentation

/-- The arguments of one `Segmentation(...)` (`annotation.py` 75-80). -/
structure Args where
  uid : String
  shape : List Int
  gts : List Bitmask
  pds : List Bitmask
  info : Option String := none
deriving DecidableEq

/-- A segmentation that was constructed: it refers to the arrays of its bitmasks (`annotation.py` 75-80). -/
structure Obj where
  uid : String
  size : Nat
  gts : List Bitmask
  pds : List Bitmask
  info : Option String
deriving DecidableEq

/-- The constructor (`annotation.py` 75-91): the heap afterwards, also when it raises, and the object. -/
def construct (h : Heap) (a : Args) : Heap × Except SegErr Obj :=
  let r := postInit a.shape h a.gts a.pds
  (r.1, r.2.map (fun _ => ⟨a.uid, sizeOf2 a.shape, a.gts, a.pds, a.info⟩))

/-- What `add_data` reads of a segmentation (`loader.py` 68-94: `mask.flatten()` when the call is made). -/
def Obj.read (h : Heap) (o : Obj) : Seg :=
  ⟨o.uid, o.size, o.gts.map (fun b => ⟨(h b.addr).data, b.label, b.info⟩), o.pds.map (fun b => ⟨(h b.addr).data, b.label, b.info⟩), o.info⟩

/-- A statement of the caller's program: a construction, or `add_data` of a list of segmentations constructed before, by their
number. -/
inductive Stmt
  | make (a : Args)
  | add (is : List Nat)
deriving DecidableEq

/-- The arrays, the segmentations constructed so far (`none` where the constructor raised and the caller went on) and the
loader. -/
structure World where
  heap : Heap
  made : List (Option Obj)
  loader : Loader

/-- One statement (`annotation.py` 75-91, `loader.py` 35-205). Numbers of segmentations that do not exist are left out: the
caller has no object to pass. -/
def World.exec (w : World) : Stmt → World
  | .make a => { w with heap := (construct w.heap a).1, made := w.made ++ [(construct w.heap a).2.toOption] }
  | .add is => { w with loader := w.loader.addData ((is.filterMap (fun i => (w.made[i]?).join)).map (Obj.read w.heap)) }

/-- A program, started with the arrays `h` and an empty loader. -/
def execAll (h : Heap) (prog : List Stmt) : World := prog.foldl World.exec ⟨h, [], Loader.init⟩

end Verif.Segmentation
