import Verif.Model.Merge
/-! Specification vocabulary for C43. -/
set_option autoImplicit false
namespace Verif.Spec
open Verif

/-- the nodes that master `m` (not the first one) wants to have merged -/
def nodesOf (masters : List MasterData) (m : Nat) : Option (List MMNode) :=
  if m = 0 then none else masters[m]?.bind MasterData.nodes

/-- the components that master `m` (not the first one) wants to have merged -/
def componentsOf (masters : List MasterData) (m : Nat) : Option (List Component) :=
  if m = 0 then none else masters[m]?.bind MasterData.components

/-- Two nodes fit together in master `m`: same type, same flags, and both have points for that master. -/
def NodesMatch (m : Nat) (src tgt : MMNode) : Prop :=
  src.type = tgt.type ∧ src.flags = tgt.flags ∧ tgt.flags ≠ none ∧ m < src.points.length ∧ m < tgt.points.length

/-- Two components fit together in master `m`: same glyph, and both have offset and scale for that master. -/
def ComponentsMatch (m : Nat) (src tgt : Component) : Prop :=
  src.gid = tgt.gid ∧
  (m < src.offsetX.length ∧ m < src.offsetY.length ∧ m < src.scaleX.length ∧ m < src.scaleY.length) ∧
  (m < tgt.offsetX.length ∧ m < tgt.offsetY.length ∧ m < tgt.scaleX.length ∧ m < tgt.scaleY.length)

/-- Every master has a matching node for each node of the glyph, and a matching component for each component, unless it
has none at all. -/
def Mergeable (masters : List MasterData) (data : MasterData) : Prop :=
  (∀ m srcs, nodesOf masters m = some srcs → ∃ tgts, data.nodes = some tgts ∧
    ∀ (i : Nat) (tgt : MMNode), tgts[i]? = some tgt → ∃ src, srcs[i]? = some src ∧ NodesMatch m src tgt) ∧
  (∀ m srcs, componentsOf masters m = some srcs → ∃ tgts, data.components = some tgts ∧
    ∀ (i : Nat) (tgt : Component), tgts[i]? = some tgt → ∃ src, srcs[i]? = some src ∧ ComponentsMatch m src tgt)

/-- `l'` is `l` with the entry of each master `m` for which there is a source replaced by the entry of the source. -/
def SlotsMerged {α : Type} (src : Nat → Option (List α)) (l l' : List α) : Prop :=
  ∀ m, l'[m]? = match src m with
    | some s => s[m]?
    | none => l[m]?

/-- the merged form of a list of nodes -/
def NodesMerged (masters : List MasterData) (l l' : List MMNode) : Prop :=
  l'.length = l.length ∧ ∀ (i : Nat) (tgt tgt' : MMNode), l[i]? = some tgt → l'[i]? = some tgt' →
    tgt'.type = tgt.type ∧ tgt'.flags = tgt.flags ∧
    SlotsMerged (fun m => ((nodesOf masters m).bind (·[i]?)).map (·.points)) tgt.points tgt'.points

/-- the merged form of a list of components -/
def ComponentsMerged (masters : List MasterData) (l l' : List Component) : Prop :=
  l'.length = l.length ∧ ∀ (i : Nat) (tgt tgt' : Component), l[i]? = some tgt → l'[i]? = some tgt' →
    tgt'.gid = tgt.gid ∧
    SlotsMerged (fun m => ((componentsOf masters m).bind (·[i]?)).map (·.offsetX)) tgt.offsetX tgt'.offsetX ∧
    SlotsMerged (fun m => ((componentsOf masters m).bind (·[i]?)).map (·.offsetY)) tgt.offsetY tgt'.offsetY ∧
    SlotsMerged (fun m => ((componentsOf masters m).bind (·[i]?)).map (·.scaleX)) tgt.scaleX tgt'.scaleX ∧
    SlotsMerged (fun m => ((componentsOf masters m).bind (·[i]?)).map (·.scaleY)) tgt.scaleY tgt'.scaleY

/-- an optional list stays absent, or becomes a merged list -/
def OptMerged {α : Type} (P : List α → List α → Prop) (x y : Option (List α)) : Prop :=
  match x, y with
  | none, none => True
  | some l, some l' => P l l'
  | _, _ => False

/-- the merged form of a glyph -/
def Merged (masters : List MasterData) (data data' : MasterData) : Prop :=
  OptMerged (NodesMerged masters) data.nodes data'.nodes ∧ OptMerged (ComponentsMerged masters) data.components data'.components

end Verif.Spec
