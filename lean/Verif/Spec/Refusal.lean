import Verif.Model.Refusal

/-!
Words for statements about how reading ends.
-/
namespace DG.Cut

/-- The call finds what it asks for. -/
def Rd.ok : Rd → Bool
  | .all b => b
  | .head b => b
  | .fromHead => true

/-- The first call that does not find what it asks for is call number `k`, namely `e`. -/
def FirstBad (P : List Rd) (k : ℕ) (e : Rd) : Prop := P[k]? = some e ∧ e.ok = false ∧ ∀ i < k, ∀ e', P[i]? = some e' → e'.ok = true

/-- Nothing more happens. -/
def Stuck (sync : Bool) (n : ℕ) (P : List Rd) (c : Ranks) : Prop := ∀ c', ¬ RStep sync n P c c'

/-- Rank `r` has made all its calls. -/
def Done (P : List Rd) (c : Ranks) (r : ℕ) : Prop := c.dead r = false ∧ c.pc r = P.length

/-- Rank `r` waits in a broadcast or scatter. -/
def Waits (P : List Rd) (c : Ranks) (r : ℕ) : Prop := c.dead r = false ∧ P[c.pc r]? = some .fromHead

/-- However the calls are interleaved, when nothing more happens all ranks have made all their calls. -/
def AllFinish (sync : Bool) (n : ℕ) (P : List Rd) : Prop :=
  ∀ c, RReach sync n P c → Stuck sync n P c → ∀ r < n, Done P c r

/-- However the calls are interleaved, when nothing more happens all ranks have called `std::exit`. -/
def AllExit (sync : Bool) (n : ℕ) (P : List Rd) : Prop := ∀ c, RReach sync n P c → Stuck sync n P c → ∀ r < n, c.dead r = true

/-- However the calls are interleaved, when nothing more happens the head rank has called `std::exit`, and every other rank waits for
it for ever. -/
def Hangs (sync : Bool) (n : ℕ) (P : List Rd) : Prop :=
  ∀ c, RReach sync n P c → Stuck sync n P c → c.dead 0 = true ∧ ∀ r < n, r ≠ 0 → Waits P c r

/-- The parallel dataset is there with all its parts, written by `n` ranks. -/
def There {T : Type} (n : ℕ) (x : PDset T) : Prop :=
  x.data.isSome ∧ x.offsets.isSome ∧ x.nDims.isSome ∧ x.nRanks = some n ∧ x.totalSize.isSome ∧ x.dims.isSome

/-- The numbers of elements and the attributes are there. -/
def HasHeader {α : Type} (f : PFile α) : Prop :=
  f.dim.isSome ∧ f.numElems.isSome ∧ f.numNodes.isSome ∧ f.npe.isSome ∧ f.nb.isSome ∧ f.ns.isSome ∧ f.time.isSome ∧
    f.elemsPerPart.isSome ∧ f.layoutAttr.isSome

/-- All five parallel datasets are there, written by `n` ranks. -/
def HasDatasets {α : Type} (n : ℕ) (f : PFile α) : Prop :=
  There n f.nodeCoords ∧ There n f.l2gNode ∧ There n f.elemToNode ∧ There n f.l2gElem ∧ There n f.uc

/-- The file with one of its parallel datasets changed. -/
def change {α : Type} (f : PFile α) (d : DName) (g : ∀ {T : Type}, PDset T → PDset T) : PFile α :=
  match d with
  | .nodeCoords => { f with nodeCoords := g f.nodeCoords }
  | .l2gNode => { f with l2gNode := g f.l2gNode }
  | .elemToNode => { f with elemToNode := g f.elemToNode }
  | .l2gElem => { f with l2gElem := g f.l2gElem }
  | .uc => { f with uc := g f.uc }

end DG.Cut
