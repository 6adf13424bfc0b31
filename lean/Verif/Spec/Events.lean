import Verif.Model.Events

/-! # Specification vocabulary for the event schedule (used in theorem statements) -/

namespace Danse

section
variable {τ : Type}

/-- What a caller asked `build_events_matrix` to schedule: node `k` has an event of type `ty`
at time `t`. Fusion, relay and tree formation only exist in tree (TI-DANSE) mode. -/
def Scheduled (a : EvArgs τ) (ti : Bool) (t : τ) (k : Nat) (ty : EvType) : Prop :=
  k < a.up_t.length ∧
  match ty with
  | .up => ∃ ts, a.up_t[k]? = some ts ∧ t ∈ ts
  | .bc => ∃ ts, a.bc_t[k]? = some ts ∧ t ∈ ts
  | .fu => ti = true ∧ ∃ ts, a.fuse_t[k]? = some ts ∧ t ∈ ts
  | .re => ti = true ∧ ∃ ts, a.re_t[k]? = some ts ∧ t ∈ ts
  | .tr => ti = true ∧ ∃ ts, a.tr_t[k]? = some ts ∧ t ∈ ts

/-- Everything a produced schedule delivers, in order of execution. -/
def delivered (out : List (Instant τ)) : List (τ × Nat × EvType) :=
  out.flatMap fun i => i.evs.map fun e => (i.t, e.node, e.ty)

/-- The nodes listed in one level. -/
def Level.nodes : Level → List Nat
  | .one n => [n]
  | .many ns => ns

/-- An ordering lists every one of the `n` nodes, once. -/
def CoversNodes (n : Nat) (o : List Level) : Prop :=
  (o.flatMap Level.nodes).Nodup ∧ ∀ k, k < n → k ∈ o.flatMap Level.nodes

/-- The nodes whose filter update is actually performed at an instant. -/
def performedAt (i : Instant τ) : List Nat :=
  (i.evs.filter fun e => decide (e.ty = .up) && !e.bypass).map (·.node)

/-- The nodes whose filter update is actually performed, along the run. -/
def performed (out : List (Instant τ)) : List Nat := out.flatMap performedAt

/-- The instants at which at least one node starts a new frame (has an update event). -/
def frameInstants (out : List (Instant τ)) : List (Instant τ) :=
  out.filter fun i => i.evs.any fun e => decide (e.ty = .up)

end

end Danse

namespace Danse

/-- The order in which event types must run inside one instant: tree formation, fusion,
(partial sum and) broadcast, relay, filter update. -/
def evRank : EvType → Nat
  | .tr => 0
  | .fu => 1
  | .bc => 2
  | .re => 3
  | .up => 4

/-- Index of the level of a leaf-to-root ordering in which a node lives (leaves first, root
last). -/
def levelIdx (o : List Level) (k : Nat) : Nat := o.findIdx fun l => decide (k ∈ l.nodes)

/-- `x` may run before `y` inside an instant of a tree network whose leaf-to-root ordering is
`o`: by event type; tree formation, fusion and partial sums from the leaves to the root; relays
and updates from the root to the leaves; same level by node index. -/
def TreeOrder (o : List Level) (x y : OutEv) : Prop :=
  evRank x.ty < evRank y.ty ∨
  (x.ty = y.ty ∧
    ((levelIdx o x.node = levelIdx o y.node ∧ x.node < y.node) ∨
     ((x.ty = .tr ∨ x.ty = .fu ∨ x.ty = .bc) ∧ levelIdx o x.node < levelIdx o y.node) ∨
     ((x.ty = .re ∨ x.ty = .up) ∧ levelIdx o y.node < levelIdx o x.node)))

/-- Number of trees formed up to (and including) time `t`: distinct tree-formation instants
not after `t`. -/
def treesFormedUpTo {τ : Type} [LinearOrder τ] (a : EvArgs τ) (t : τ) : Nat :=
  ((a.tr_t.take a.up_t.length).flatten.dedup.filter fun x => decide (x ≤ t)).length

end Danse

namespace Danse

/-- Number of frame instants at the end of `out` since the last one at which an update was
performed (all of them if none was). -/
def framesSinceUpdate {τ : Type} (out : List (Instant τ)) : Nat :=
  ((frameInstants out).reverse.takeWhile fun i => (performedAt i).isEmpty).length

end Danse
