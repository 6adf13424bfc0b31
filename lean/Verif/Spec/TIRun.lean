import Verif.Model.TIRun
import Verif.Spec.Tree
import Verif.Spec.Clock
import Mathlib.Combinatorics.SimpleGraph.Acyclic

/-!
# Specification: TI-DANSE without a network

What TI-DANSE is supposed to compute, described without trees, partial sums, relays or an order of
events: at each exchange, every node fuses its signals, and every node obtains the sum of the fused frames
of all the others.
-/

namespace Danse
section
variable {n : Nat} {K : Type} [Field K] [StarRing K] [DecidableEq K]

/-- What an instant of the schedule asks for, whatever the tree: its time, whether the nodes exchange
signals, and which nodes update (with the bypass flag). -/
structure Work where
  t : ℚ
  exchange : Bool
  ups : Nat → Option Bool

/-- The work of an instant. -/
def workOf (i : Instant ℚ) : Work :=
  { t := i.t
    exchange := i.evs.any fun e => decide (e.ty = .fu)
    ups := fun k => (i.evs.find? fun e => decide (e.ty = .up ∧ e.node = k)).map (·.bypass) }

/-- The work of a schedule; instants at which only a tree is formed are left out. -/
def worksOf (out : List (Instant ℚ)) : List Work :=
  (out.filter fun i => i.evs.any fun e => decide (e.ty ≠ .tr)).map workOf

/-- The state of the network that matters: variables of the nodes, latest output of the fusion, fused
frame, sum of the fused frames of the others. -/
structure TIView (n : Nat) (K : Type) where
  node : Fin n → TINode K
  buf : Fin n → List K
  frame : Fin n → List K
  eta : Fin n → List K

/-- Sum of the frames of all nodes but `k`, sample by sample. -/
def sumOthers (N : Nat) (frame : Fin n → List K) (k : Fin n) : List K :=
  (List.range N).map fun t => ∑ v ∈ Finset.univ.erase k, at0 (frame v) t

/-- An exchange of signals at time `t`: every node fuses its signals; the first `Ns` samples of the
result become the newest samples of its frame; every node has the sum of the frames of all the
others. -/
def DirectExchange (g : GivenCfg K) (y : Fin n → List (List K)) (t : ℚ) (a m : TIView n K) : Prop :=
  ∀ k : Fin n, tiFuse g (y k) t k (a.node k) (a.buf k) = .ok (m.node k, m.buf k) ∧
    m.frame k = newFrame g.Ns a.frame m.buf k ∧
    m.eta k = sumOthers g.N m.frame k

/-- The updates of an instant. -/
def DirectUpdates (g : GivenCfg K) (U : TIStrategy n K) (y : Fin n → List (List K)) (w : Work)
    (m b : TIView n K) : Prop :=
  b.buf = m.buf ∧ b.frame = m.frame ∧ b.eta = m.eta ∧
  ∀ k : Fin n, match w.ups k with
    | none => b.node k = m.node k
    | some f => tiUpdate g (U.rows k) (U.started k) (y k) w.t k f (m.node k) (m.eta k) = .ok (b.node k)

/-- One instant. -/
def DirectStep (g : GivenCfg K) (U : TIStrategy n K) (y : Fin n → List (List K)) (w : Work)
    (a b : TIView n K) : Prop :=
  ∃ m, (if w.exchange then DirectExchange g y w.t a m else m = a) ∧ DirectUpdates g U y w m b

/-- A whole run. -/
inductive DirectRun (g : GivenCfg K) (U : TIStrategy n K) (y : Fin n → List (List K)) :
    TIView n K → List Work → TIView n K → Prop
  | nil (a) : DirectRun g U y a [] a
  | cons {a m b w ws} : DirectStep g U y w a m → DirectRun g U y m ws b → DirectRun g U y a (w :: ws) b

/-- What a state of the run says about the network. -/
def TISt.view (s : TISt n K) : TIView n K :=
  ⟨s.node, s.net.buf, s.net.prime, s.net.etaMk⟩

/-- Before the first event. -/
def TIView.init (N refSensor T : Nat) (y : Fin n → List (List K)) (ext : Fin n → List (List K)) :
    TIView n K :=
  ⟨fun k => .init N refSensor T (y k).length (ext k), fun _ => [], fun _ => List.replicate N 0, fun _ => []⟩

end

/-- `T` is a tree network with the node `T.root` as its root, as `orientate` sets it up, and `lev` its
leaf-to-root ordering. -/
def OrientedTree {n : Nat} (T : TreeObj n) (lev : List Level) : Prop :=
  ∃ (G : SimpleGraph (Fin n)) (nbr : Fin n → List (Fin n)) (o : Orient (Fin n) × List (TreeLevel (Fin n))),
    G.IsTree ∧ NeighboursOf G nbr ∧ orientate nbr T.root (n + 1) = some o ∧ T.up = o.1.up ∧
    lev = o.2.map TreeLevel.toLevel

end Danse

namespace Danse

/-- The times of a run in a network of `n` nodes that exchange their signals at the times `ex`, all
together. One tree is formed at a time, the first one before anything else happens. -/
structure TITimes (n : Nat) (a : EvArgs ℚ) (ex : List ℚ) : Prop where
  nodes : a.up_t.length = n
  fuse : a.fuse_t = List.replicate n ex
  bc : a.bc_t = List.replicate n ex
  re : a.re_t = List.replicate n ex
  some : ex ≠ []
  one : (a.tr_t.take n).flatten.Nodup
  first : ∃ t0 ∈ (a.tr_t.take n).flatten, (∀ t ∈ ex, t0 ≤ t) ∧ ∀ t ∈ a.up_t.flatten, t0 ≤ t

end Danse

namespace Danse

/-- The update times of TI-DANSE nodes with a clock of `fs` Hz and `n` samples: every `Ns` samples, from a
frame (few-sample broadcasts) or two frames (whole-chunk broadcasts) after the start on. -/
def syncUpTI (bc : BcType) (N Ns n : Nat) (fs : ℚ) : List ℚ :=
  match bc with
  | .whole => everySep Ns fs ⌈((2 * N : Nat) : ℚ) / Ns⌉₊ ((n - 1) / Ns)
  | .few _ _ => everySep Ns fs ⌈(N : ℚ) / Ns⌉₊ ((n - 1) / Ns)

end Danse

namespace Danse

/-- A TI-DANSE network of `n` nodes with the same clock of `fs` Hz and `m` samples each. With few-sample
broadcasts at least `Ns` samples are fused at once. -/
structure SyncTI {n : Nat} {K : Type} (g : GivenCfg K) (fs : ℚ) (m : Nat) (y : Fin n → List (List K)) : Prop where
  shift : 0 < g.Ns
  overlap : g.Ns < g.N
  window : g.f.length = g.N
  whole : g.bc = .whole → g.Ns ∣ g.N
  few : ∀ L eff, g.bc = .few L eff → eff = false ∧ g.Ns ≤ L
  rate : 0 < fs
  clock : inferFs (clockStamps fs m) = .ok fs
  rates : ∀ k, g.fs k = fs
  signals : ∀ k, ∀ ch ∈ y k, ch.length = m
  exchange : syncBc g.bc g.N g.Ns m fs ≠ []
  update : syncUpTI g.bc g.N g.Ns m fs ≠ []

end Danse

namespace Danse

/-- The `N` samples of a signal that precede its sample `e`; zeros before its start. -/
def frameBefore {K : Type} [Field K] (N : Nat) (x : List K) (e : Nat) : List K :=
  (List.range N).map fun (j : Nat) => if N ≤ e + j then at0 x (e + j - N) else 0

end Danse

namespace Danse

/-- What node `k` takes into account at its update number `i`, at the time `i * Ns / fs`: its own frames
that end at the sample `e`, and the sum of the frames of the signals `x` of the other nodes that end at
the sample `e'`. -/
def observedAt {n : Nat} {K : Type} [Field K] (N Ns : Nat) (fs : ℚ) (y : Fin n → List (List K))
    (x : Fin n → List K) (k : Fin n) (i e e' : Nat) : ℚ × List (List K) × List K :=
  ((i : ℚ) * Ns / fs, (y k).map (frameBefore N · e), sumOthers N (fun q => frameBefore N (x q) e') k)

/-- What a node observed at an update, whether it was bypassed or not. -/
def TIObs.seen {K : Type} (o : TIObs K) : ℚ × List (List K) × List K := (o.t, o.loc, o.eta)

end Danse
