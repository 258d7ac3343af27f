import Verif.Props.MoreSamples

/-!
# C154: other units for the weights or the joints

The search only adds and compares costs.  So it makes the same choices when every cost is seen through a
map that keeps sums and the order: with all weights multiplied by the same positive number, with the joints
in other units, or with the zero of each joint moved.  This holds for the heap of libstdc++ as it is used,
also where the path found is not the shortest one.
-/

set_option linter.unusedSectionVars false

namespace Verif.Props

open Verif Verif.Search Verif.CppGraph Verif.ShortestPath Verif.Spec

variable {F F' C C' : Type} [CostArith C] [CostArith C'] [JointArith F C] [JointArith F' C']

/-- A map of costs that keeps what the search computes: the order, sums, zero and infinity. -/
structure CostMap (φ : C → C') : Prop where
  lt : ∀ a b, φ a < φ b ↔ a < b
  add : ∀ a b, φ (a + b) = φ a + φ b
  zero : φ 0 = 0
  top : φ ⊤ = ⊤

/-! ## Nodes and stores -/

/-- The same node with other data. -/
def mapNd {α β : Type} (m : α → β) (n : Nd α) : Nd β := ⟨n.pi, n.pos, n.si, m n.data⟩

/-- The same parent. -/
def mapPar {α β : Type} (m : α → β) : Par α → Par β
  | .none => .none
  | .dummy => .dummy
  | .node n => .node (mapNd m n)

/-- The same mutable fields. -/
def mapSt {α β : Type} (φ : C → C') (m : α → β) (s : St C α) : St C' β :=
  ⟨φ s.dist, mapPar m s.parent, s.visited⟩

/-- The same store. -/
def mapStore {α β : Type} (φ : C → C') (m : α → β) (s : Store C α) : Store C' β :=
  fun i j => mapSt φ m (s i j)

section Sim

variable {α β : Type} {φ : C → C'} (hφ : CostMap φ) (m : α → β)

theorem mapStore_at (s : Store C α) (n : Nd α) :
    (mapStore φ m s).at (mapNd m n) = mapSt φ m (s.at n) := rfl

theorem mapStore_dist (s : Store C α) (n : Nd α) :
    ((mapStore φ m s).at (mapNd m n)).dist = φ (s.at n).dist := rfl

theorem mapStore_upd (s : Store C α) (n : Nd α) (v : St C α) :
    (mapStore φ m s).upd (mapNd m n) (mapSt φ m v) = mapStore φ m (s.upd n v) := by
  funext i j
  unfold Store.upd mapStore
  by_cases h : i = n.pi ∧ j = n.pos
  · simp [h, mapNd]
  · simp only [mapNd, h, if_false]

/-- Store and queue of the other run. -/
def mapRun {Q Q' : Type} (φ : C → C') (m : α → β) (qm : Q → Q') (s : Store C α × Q) :
    Store C' β × Q' :=
  (mapStore φ m s.1, qm s.2)

variable {Q Q' : Type} {qm : Q → Q'} {push : Store C α → Q → Nd α → Q}
  {push' : Store C' β → Q' → Nd β → Q'} {cost : Nd α → Nd α → C} {cost' : Nd β → Nd β → C'}

include hφ

theorem relax_map
    (hpush : ∀ s q n, push' (mapStore φ m s) (qm q) (mapNd m n) = qm (push s q n))
    (hcost : ∀ u v, cost' (mapNd m u) (mapNd m v) = φ (cost u v)) (cur nb : Nd α)
    (s : Store C α × Q) :
    relax cost' push' (mapNd m cur) (mapRun φ m qm s) (mapNd m nb) =
      mapRun φ m qm (relax cost push cur s nb) := by
  obtain ⟨s, q⟩ := s
  have h1 : (if ((mapStore φ m s).at (mapNd m cur)).dist + cost' (mapNd m cur) (mapNd m nb) <
        ((mapStore φ m s).at (mapNd m nb)).dist then
      (mapStore φ m s).upd (mapNd m nb) { (mapStore φ m s).at (mapNd m nb) with
        dist := ((mapStore φ m s).at (mapNd m cur)).dist + cost' (mapNd m cur) (mapNd m nb)
        parent := .node (mapNd m cur) } else mapStore φ m s) =
      mapStore φ m (if (s.at cur).dist + cost cur nb < (s.at nb).dist then
        s.upd nb { s.at nb with dist := (s.at cur).dist + cost cur nb, parent := .node cur }
        else s) := by
    simp only [mapStore_dist, hcost, ← hφ.add, hφ.lt]
    split
    · rw [← mapStore_upd]; rfl
    · rfl
  unfold relax mapRun
  simp only [h1]
  generalize (if (s.at cur).dist + cost cur nb < (s.at nb).dist then _ else s) = st
  have h2 : ((mapStore φ m st).at (mapNd m nb)).visited = (st.at nb).visited := rfl
  rw [h2]
  split
  · rfl
  · rw [hpush]
    exact Prod.ext (mapStore_upd m st nb { st.at nb with visited := true }) rfl

theorem expand_map
    (hpush : ∀ s q n, push' (mapStore φ m s) (qm q) (mapNd m n) = qm (push s q n))
    (hcost : ∀ u v, cost' (mapNd m u) (mapNd m v) = φ (cost u v))
    {nbs : Nd α → List (Nd α)} {nbs' : Nd β → List (Nd β)}
    (hnbs : ∀ u, nbs' (mapNd m u) = (nbs u).map (mapNd m)) (cur : Nd α) (s : Store C α × Q) :
    expand cost' push' nbs' (mapNd m cur) (mapRun φ m qm s) =
      mapRun φ m qm (expand cost push nbs cur s) := by
  unfold expand
  rw [hnbs]
  generalize nbs cur = l
  induction l generalizing s with
  | nil => rfl
  | cons x l ih =>
    rw [List.map_cons, List.foldl_cons, List.foldl_cons, relax_map hφ m hpush hcost, ih]

theorem startCol_map
    (hpush : ∀ s q n, push' (mapStore φ m s) (qm q) (mapNd m n) = qm (push s q n))
    (col : List (Nd α)) (s : Store C α × Q) :
    startCol push' (col.map (mapNd m)) (mapRun φ m qm s) = mapRun φ m qm (startCol push col s) := by
  unfold startCol
  induction col generalizing s with
  | nil => rfl
  | cons x l ih =>
    rw [List.map_cons, List.foldl_cons, List.foldl_cons, ← ih]
    congr 1
    have h : (mapStore φ m s.1).upd (mapNd m x) ⟨0, .dummy, true⟩ =
        mapStore φ m (s.1.upd x ⟨0, .dummy, true⟩) := by
      rw [← mapStore_upd]; unfold mapSt; rw [hφ.zero]; rfl
    refine Prod.ext h ?_
    show push' ((mapStore φ m s.1).upd (mapNd m x) ⟨0, .dummy, true⟩) (qm s.2) (mapNd m x) = _
    rw [h, hpush]
    rfl

theorem bfsLoop_map (hcost : ∀ u v, cost' (mapNd m u) (mapNd m v) = φ (cost u v))
    {nbs : Nd α → List (Nd α)} {nbs' : Nd β → List (Nd β)}
    (hnbs : ∀ u, nbs' (mapNd m u) = (nbs u).map (mapNd m)) (fuel : Nat)
    (s : Store C α × List (Nd α)) :
    bfsLoop cost' nbs' fuel (mapRun φ m (List.map (mapNd m)) s) =
      (bfsLoop cost nbs fuel s).map (mapStore φ m) := by
  induction fuel generalizing s with
  | zero =>
    obtain ⟨s, q⟩ := s
    cases q <;> simp [mapRun, bfsLoop]
  | succ fuel ih =>
    obtain ⟨s, q⟩ := s
    cases q with
    | nil => simp [mapRun, bfsLoop]
    | cons cur q =>
      show bfsLoop cost' nbs' fuel (expand cost' fifoPush nbs' (mapNd m cur)
        (mapRun φ m (List.map (mapNd m)) (s, q))) = _
      rw [expand_map hφ m (push := fifoPush) (fun s q n => by simp [fifoPush]) hcost hnbs, ih]
      rfl

/-! ## The heap of libstdc++ -/

theorem siftUp_map (s : Store C α) (v : Nd α) (fuel hole : Nat) (h : List (Nd α)) :
    siftUp (mapStore φ m s) (mapNd m v) fuel hole (h.map (mapNd m)) =
      (siftUp s v fuel hole h).map (mapNd m) := by
  induction fuel generalizing hole h with
  | zero => simp [siftUp, List.map_set]
  | succ fuel ih =>
    unfold siftUp
    split
    · simp [List.map_set]
    · rw [List.getElem?_map]
      cases h[(hole - 1) / 2]? with
      | none => rfl
      | some p =>
        simp only [Option.map_some, mapStore_dist, hφ.lt]
        split
        · rw [← ih, List.map_set]
        · rw [List.map_set]

theorem heapPush_map (s : Store C α) (h : List (Nd α)) (v : Nd α) :
    heapPush (mapStore φ m s) (h.map (mapNd m)) (mapNd m v) = (heapPush s h v).map (mapNd m) := by
  unfold heapPush
  rw [← siftUp_map hφ m, List.length_map, List.map_append]
  rfl

theorem siftDown_map (s : Store C α) (fuel hole : Nat) (h : List (Nd α)) :
    siftDown (mapStore φ m s) fuel (h.map (mapNd m)) hole =
      ((siftDown s fuel h hole).1.map (mapNd m), (siftDown s fuel h hole).2) := by
  induction fuel generalizing hole h with
  | zero => rfl
  | succ fuel ih =>
    unfold siftDown
    rw [List.length_map, List.getElem?_map, List.getElem?_map]
    split
    · cases h[2 * hole + 2]? with
      | none => rfl
      | some r =>
        cases h[2 * hole + 1]? with
        | none => rfl
        | some l =>
          simp only [Option.map_some, mapStore_dist, hφ.lt]
          split
          · rw [← List.map_set, ih]
          · rw [← List.map_set, ih]
    · split
      · cases h[2 * hole + 1]? with
        | none => rfl
        | some l => simp [List.map_set]
      · rfl

theorem heapPop_map (s : Store C α) (h : List (Nd α)) :
    heapPop (mapStore φ m s) (h.map (mapNd m)) =
      (heapPop s h).map fun r => (mapNd m r.1, r.2.map (mapNd m)) := by
  match h with
  | [] => rfl
  | [x] => rfl
  | x :: y :: rest =>
    have e1 : (mapNd m y :: rest.map (mapNd m)).getLast (by simp) =
        mapNd m ((y :: rest).getLast (by simp)) :=
      List.getLast_map (f := mapNd m) (l := y :: rest) (by simp)
    have e2 : (mapNd m x :: mapNd m y :: rest.map (mapNd m)).dropLast =
        ((x :: y :: rest).dropLast).map (mapNd m) := by
      rw [List.map_dropLast]; rfl
    simp only [List.map_cons, heapPop, e1, e2, List.length_map, siftDown_map hφ m, siftUp_map hφ m,
      Option.map_some]

omit hφ in
theorem dijkstraLoop_zero (nbs : Nd α → List (Nd α)) (maxIdx goals : Nat) (s : Store C α)
    (q : List (Nd α)) :
    dijkstraLoop (stdHeap : PQ C α) cost nbs maxIdx 0 (s, q) goals =
      if goals = 0 then some (s, goals) else
        match heapPop s q with
        | none => some (s, goals)
        | some _ => none := by
  unfold dijkstraLoop
  simp only [stdHeap]
  cases heapPop s q <;> rfl

omit hφ in
theorem dijkstraLoop_succ (nbs : Nd α → List (Nd α)) (maxIdx fuel goals : Nat) (s : Store C α)
    (q : List (Nd α)) :
    dijkstraLoop (stdHeap : PQ C α) cost nbs maxIdx (fuel + 1) (s, q) goals =
      if goals = 0 then some (s, goals) else
        match heapPop s q with
        | none => some (s, goals)
        | some (cur, q') => dijkstraLoop (stdHeap : PQ C α) cost nbs maxIdx fuel
            (expand cost heapPush nbs cur (s, q')) (if cur.pi = maxIdx then goals - 1 else goals) := by
  rw [dijkstraLoop.eq_def]
  simp only [stdHeap]
  cases heapPop s q <;> rfl

theorem dijkstraLoop_map (hcost : ∀ u v, cost' (mapNd m u) (mapNd m v) = φ (cost u v))
    {nbs : Nd α → List (Nd α)} {nbs' : Nd β → List (Nd β)}
    (hnbs : ∀ u, nbs' (mapNd m u) = (nbs u).map (mapNd m)) (maxIdx fuel : Nat)
    (s : Store C α × List (Nd α)) (goals : Nat) :
    dijkstraLoop (stdHeap : PQ C' β) cost' nbs' maxIdx fuel (mapRun φ m (List.map (mapNd m)) s) goals =
      (dijkstraLoop (stdHeap : PQ C α) cost nbs maxIdx fuel s goals).map
        fun r => (mapStore φ m r.1, r.2) := by
  induction fuel generalizing s goals with
  | zero =>
    obtain ⟨s, q⟩ := s
    simp only [mapRun]
    erw [dijkstraLoop_zero (cost := cost'), dijkstraLoop_zero (cost := cost)]
    rw [heapPop_map hφ m]
    split
    · rfl
    · cases heapPop s q <;> rfl
  | succ fuel ih =>
    obtain ⟨s, q⟩ := s
    simp only [mapRun]
    erw [dijkstraLoop_succ (cost := cost'), dijkstraLoop_succ (cost := cost)]
    rw [heapPop_map hφ m]
    split
    · rfl
    · cases heapPop s q with
      | none => rfl
      | some r =>
        obtain ⟨cur, q'⟩ := r
        have := expand_map (qm := List.map (mapNd m)) (push := heapPush) (push' := heapPush) hφ m
          (heapPush_map hφ m) hcost hnbs cur (s, q')
        exact (congrArg (fun z => dijkstraLoop (stdHeap : PQ C' β) cost' nbs' maxIdx fuel z
          (if cur.pi = maxIdx then goals - 1 else goals)) this).trans (ih _ _)

theorem closest_map {m : List F → List F'} (s : Store C (List F)) (col : List (Nd (List F))) :
    closest (mapStore φ m s) (col.map (mapNd m)) =
      (φ (closest s col).1, (closest s col).2.map (mapNd m)) := by
  unfold closest
  rw [← hφ.top]
  suffices h : ∀ acc : C × Option (Nd (List F)),
      (col.map (mapNd m)).foldl (fun (acc : C' × Option (Nd (List F'))) n =>
        if ((mapStore φ m s).at n).dist < acc.1 then (((mapStore φ m s).at n).dist, some n) else acc)
        (φ acc.1, acc.2.map (mapNd m)) =
      (φ (col.foldl (fun (acc : C × Option (Nd (List F))) n =>
        if (s.at n).dist < acc.1 then ((s.at n).dist, some n) else acc) acc).1,
       (col.foldl (fun (acc : C × Option (Nd (List F))) n =>
        if (s.at n).dist < acc.1 then ((s.at n).dist, some n) else acc) acc).2.map (mapNd m)) from
    h (⊤, none)
  intro acc
  induction col generalizing acc with
  | nil => rfl
  | cons x col ih =>
    rw [List.map_cons, List.foldl_cons, List.foldl_cons, ← ih]
    congr 1
    simp only [mapStore_dist, hφ.lt]
    split <;> rfl

theorem trace_map {m : List F → List F'} (s : Store C (List F)) (fuel : Nat) (n : Nd (List F)) :
    trace (mapStore φ m s) fuel (mapNd m n) = (trace s fuel n).map (List.map (mapNd m)) := by
  induction fuel generalizing n with
  | zero => rfl
  | succ fuel ih =>
    unfold trace
    have h1 : (mapNd m n).pi = n.pi := rfl
    have h2 : ((mapStore φ m s).at (mapNd m n)).parent = mapPar m (s.at n).parent := rfl
    rw [h1, h2]
    split
    · cases (s.at n).parent with
      | none => rfl
      | dummy => rfl
      | node u =>
        simp only [mapPar, ih]
        cases trace s fuel u <;> rfl
    · rfl

end Sim

/-! ## The graph -/

/-- The graph of the other run. -/
def mapGraph (φ : C → C') (m : List F → List F') (w' : List F') (g : Graph F C) : Graph F' C' :=
  { gd := g.gd.map (List.map m), na := g.na.map (List.map (mapNd m)), store := mapStore φ m g.store
    pathFound := g.pathFound, shortestPathCost := φ g.shortestPathCost, numGoals := g.numGoals
    maxPathIndex := g.maxPathIndex, weights := w' }

section GraphSim

variable {φ : C → C'} (hφ : CostMap φ) {m : List F → List F'} (hm : ∀ x, (m x).length = x.length)
  {w' : List F'} {g : Graph F C}

theorem getNeighbors_map (u : Nd (List F)) :
    (mapGraph φ m w' g).getNeighbors (mapNd m u) = (g.getNeighbors u).map (mapNd m) := by
  unfold Graph.getNeighbors
  simp only [mapGraph, List.length_map, List.getElem?_map]
  have : (mapNd m u).pi = u.pi := rfl
  rw [this]
  split
  · rfl
  · cases g.na[u.pi + 1]? <;> rfl

theorem fuel_map : (mapGraph φ m w' g).fuel = g.fuel := by
  unfold Graph.fuel
  simp [mapGraph, List.map_map, Function.comp_def]

include hm in
theorem dimsOk_map (hw : w'.length = g.weights.length) :
    (mapGraph φ m w' g).dimsOk = g.dimsOk := by
  unfold Graph.dimsOk
  simp only [mapGraph, ← List.map_tail, List.zip_map, List.all_map, Function.comp_def, Prod.map_fst,
    Prod.map_snd, mapNd, hm, hw]

theorem runBfs_cons {start : List (Nd (List F))} {rest : List (List (Nd (List F)))}
    (h : g.na = start :: rest) :
    g.runBfs = if g.dimsOk = false then .error .outOfBounds
      else
        match bfsLoop g.edgeCost g.getNeighbors g.fuel (startCol fifoPush start (g.store, [])) with
        | none => .error .outOfFuel
        | some s => Graph.finish { g with store := s, pathFound := true } := by
  unfold Graph.runBfs
  split
  · rename_i h'; rw [h] at h'; exact absurd h' (by simp)
  · rename_i h'
    rw [h] at h'
    obtain ⟨rfl, -⟩ := List.cons.inj h'
    rfl

theorem runDijkstra_cons (pq : PQ C (List F)) {start : List (Nd (List F))}
    {rest : List (List (Nd (List F)))} (h : g.na = start :: rest) :
    g.runDijkstra pq = if g.dimsOk = false then .error .outOfBounds
      else
        match dijkstraLoop pq g.edgeCost g.getNeighbors g.maxPathIndex g.fuel
            (startCol pq.push start (g.store, pq.empty)) g.numGoals with
        | none => .error .outOfFuel
        | some (s, goals) =>
          Graph.finish { g with store := s, numGoals := goals, pathFound := true } := by
  unfold Graph.runDijkstra
  split
  · rename_i h'; rw [h] at h'; exact absurd h' (by simp)
  · rename_i h'
    rw [h] at h'
    obtain ⟨rfl, -⟩ := List.cons.inj h'
    rfl

include hφ

theorem getPathNodes_map :
    (mapGraph φ m w' g).getPathNodes = g.getPathNodes.map (List.map (mapNd m)) := by
  unfold Graph.getPathNodes
  simp only [mapGraph, List.getLast?_map, List.length_map]
  split
  · cases g.na.getLast? with
    | none => rfl
    | some last =>
      simp only [Option.map_some, closest_map hφ]
      rcases closest g.store last with ⟨c, _ | goal⟩
      · rfl
      · simp only [Option.map_some, trace_map hφ]
        cases trace g.store (g.na.length + 1) goal with
        | error e => rfl
        | ok p => simp [Except.map, bind, Except.bind]
  · rfl

theorem pathCostFrom_map
    (hc : ∀ x y, costFn2 (C := C') w' (m x) (m y) = φ (costFn2 g.weights x y)) (acc : C)
    (p : List (Nd (List F))) :
    (mapGraph φ m w' g).pathCostFrom (φ acc) (p.map (mapNd m)) = φ (g.pathCostFrom acc p) := by
  induction p generalizing acc with
  | nil => rfl
  | cons u p ih =>
    cases p with
    | nil => rfl
    | cons v p =>
      simp only [List.map_cons, Graph.pathCostFrom] at ih ⊢
      rw [← ih, hφ.add]
      congr 2
      exact hc _ _

theorem finish_map
    (hc : ∀ x y, costFn2 (C := C') w' (m x) (m y) = φ (costFn2 g.weights x y)) :
    (mapGraph φ m w' g).finish = g.finish.map (mapGraph φ m w') := by
  unfold Graph.finish
  rw [getPathNodes_map hφ]
  cases g.getPathNodes with
  | error e => rfl
  | ok p =>
    have := pathCostFrom_map hφ hc 0 p
    rw [hφ.zero] at this
    simp only [Except.map, bind, Except.bind, this]
    rfl

include hm

theorem runBfs_map (hw : w'.length = g.weights.length)
    (hc : ∀ x y, costFn2 (C := C') w' (m x) (m y) = φ (costFn2 g.weights x y)) :
    (mapGraph φ m w' g).runBfs = g.runBfs.map (mapGraph φ m w') := by
  have hd := dimsOk_map (φ := φ) hm hw
  rcases hna : g.na with _ | ⟨start, rest⟩
  · simp [Graph.runBfs, mapGraph, hna, Except.map]
  · have hna' : (mapGraph φ m w' g).na = start.map (mapNd m) :: rest.map (List.map (mapNd m)) := by
      simp [mapGraph, hna]
    rw [runBfs_cons hna', runBfs_cons hna, hd, fuel_map]
    split
    · rfl
    · have h1 : startCol fifoPush (start.map (mapNd m)) ((mapGraph φ m w' g).store, []) =
          mapRun φ m (List.map (mapNd m)) (startCol fifoPush start (g.store, [])) :=
        startCol_map (push := fifoPush) (push' := fifoPush) (qm := List.map (mapNd m)) hφ m
          (fun s q n => by simp [fifoPush]) start (g.store, [])
      rw [h1, bfsLoop_map hφ m (cost := g.edgeCost) (nbs := g.getNeighbors) (fun u v => hc _ _)
        getNeighbors_map]
      cases bfsLoop g.edgeCost g.getNeighbors g.fuel (startCol fifoPush start (g.store, [])) with
      | none => rfl
      | some s => exact finish_map (g := { g with store := s, pathFound := true }) hφ hc

theorem runDijkstra_map (hw : w'.length = g.weights.length)
    (hc : ∀ x y, costFn2 (C := C') w' (m x) (m y) = φ (costFn2 g.weights x y)) :
    (mapGraph φ m w' g).runDijkstra stdHeap = (g.runDijkstra stdHeap).map (mapGraph φ m w') := by
  have hd := dimsOk_map (φ := φ) hm hw
  rcases hna : g.na with _ | ⟨start, rest⟩
  · simp [Graph.runDijkstra, mapGraph, hna, Except.map]
  · have hna' : (mapGraph φ m w' g).na = start.map (mapNd m) :: rest.map (List.map (mapNd m)) := by
      simp [mapGraph, hna]
    rw [runDijkstra_cons stdHeap hna', runDijkstra_cons stdHeap hna, hd, fuel_map]
    split
    · rfl
    · obtain ⟨s0, hs0⟩ : ∃ s0 : Store C (List F) × List (Nd (List F)),
          s0 = startCol heapPush start (g.store, []) := ⟨_, rfl⟩
      have h0 : startCol (stdHeap : PQ C (List F)).push start
            (g.store, (stdHeap : PQ C (List F)).empty) = s0 := hs0.symm
      have h1 : startCol (stdHeap : PQ C' (List F')).push (start.map (mapNd m))
            ((mapGraph φ m w' g).store, (stdHeap : PQ C' (List F')).empty) =
          mapRun φ m (List.map (mapNd m)) s0 := by
        rw [hs0]
        exact startCol_map (push := heapPush) (push' := heapPush) hφ m (heapPush_map hφ m) start
          (g.store, [])
      rw [h1, h0]
      have h2 := dijkstraLoop_map hφ m (cost := g.edgeCost) (cost' := (mapGraph φ m w' g).edgeCost)
        (nbs := g.getNeighbors) (nbs' := (mapGraph φ m w' g).getNeighbors) (fun u v => hc _ _)
        getNeighbors_map g.maxPathIndex g.fuel s0 g.numGoals
      have h3 : (mapGraph φ m w' g).maxPathIndex = g.maxPathIndex := rfl
      have h4 : (mapGraph φ m w' g).numGoals = g.numGoals := rfl
      rw [h3, h4]
      erw [h2]
      cases dijkstraLoop (stdHeap : PQ C (List F)) g.edgeCost g.getNeighbors g.maxPathIndex g.fuel s0
        g.numGoals with
      | none => rfl
      | some r =>
        exact finish_map (g := { g with store := r.1, numGoals := r.2, pathFound := true }) hφ hc

omit hm in
theorem getPath_map (n : Nat) : (mapGraph φ m w' g).getPath n = g.getPath n := by
  unfold Graph.getPath
  rw [getPathNodes_map hφ]
  have h1 : (mapGraph φ m w' g).pathFound = g.pathFound := rfl
  rw [h1]
  split
  · cases g.getPathNodes with
    | error e => rfl
    | ok p => simp [Except.map, bind, Except.bind, mapNd, Function.comp_def]
  · rfl

end GraphSim

/-! ## Building the graph -/

/-- The same column with other joint values. -/
def mapCol (m : List F → List F') : PyCol F → PyCol F'
  | .emptyList => .emptyList
  | .arr b n rows => .arr b n (rows.map m)

/-- What `get_shortest_path` returns, seen through `m` and `φ`. -/
def mapRes (φ : C → C') (m : List F → List F') (r : PlanRes F C) : PlanRes F' C' :=
  ⟨r.success, r.path.map (List.map m), r.length.map φ⟩

theorem mapCol_ok {m : List F → List F'} (hm : ∀ x, (m x).length = x.length) {d : Nat}
    {Q : List (PyCol F)} (h : InputOK d Q) : InputOK d (Q.map (mapCol m)) := by
  have hf : ∀ c : PyCol F, (mapCol m c).isF32 = c.isF32 := by
    intro c
    rcases c with _ | ⟨_ | _, n, rows⟩ <;> rfl
  refine ⟨by simpa using h.ne, ?_, ?_⟩
  · intro c hc
    obtain ⟨c, hc', rfl⟩ := List.mem_map.1 hc
    have := h.col c hc'
    rcases c with _ | ⟨b, n, rows⟩
    · exact this
    · obtain ⟨h1, h2, h3⟩ := this
      refine ⟨h1, by simpa using h2, ?_⟩
      intro r hr
      obtain ⟨r, hr', rfl⟩ := List.mem_map.1 hr
      rw [hm]; exact h3 r hr'
  · intro hh c hc
    obtain ⟨c, hc', rfl⟩ := List.mem_map.1 hc
    rw [hf]
    refine h.f32 ?_ c hc'
    rw [← hh]
    cases Q with
    | nil => rfl
    | cons c cs => simp [hf]

theorem asFloat32_mapCol {m : List F → List F'} {conv : F → F} {conv' : F' → F'}
    (hconv : ∀ x, (m x).map conv' = m (x.map conv)) (c : PyCol F) :
    asFloat32 conv' (mapCol m c) = (asFloat32 conv c).map m := by
  rcases c with _ | ⟨_ | _, n, rows⟩
  · rfl
  · simp [mapCol, asFloat32, List.map_map, Function.comp_def, hconv]
  · rfl

/-- The graph that `get_shortest_path` searches. -/
def startGraph (cols : List (List (List F))) (w : List F) : Graph F C :=
  { gd := cols, na := PyGraph.dataToNodeArray cols, store := fun _ _ => freshSt
    shortestPathCost := ⊤
    numGoals := (((PyGraph.dataToNodeArray cols).getLast?).getD []).length
    maxPathIndex := (PyGraph.dataToNodeArray cols).length - 1, weights := w }

/-- What `get_shortest_path` does with the graph. -/
def searchOn (pq : PQ C (List F)) (method : ShortestPath.Method) (cols : List (List (List F)))
    (g : Graph F C) : Except Err (PlanRes F C) := do
  let g ← match method with
    | .bfs => liftCpp g.runBfs
    | .dijkstra => liftCpp (g.runDijkstra pq)
    | .other => .error (.py .notImplementedError)
  let _ ← liftCpp g.getPathNodes
  match ← liftCpp (g.getPath cols.length) with
  | none => .error (.fault .uninitialised)
  | some pi => do
    let cost := g.getPathCost
    let p0 ← liftPy (pyGet pi 0)
    if p0 = -1 then .ok { success := false }
    else do
      let res ← liftPy (PyGraph.pathIndexToPath pi cols)
      .ok { success := true, path := some res, length := some cost }

theorem init_startGraph {cols : List (List (List F))} {d : Nat} (hp : Proper cols d) {g0 : Graph F C}
    (hna : g0.na = []) (hst : ∀ i j, g0.store i j = freshSt) (hgd : g0.gd = cols)
    (hsp : g0.shortestPathCost = ⊤) {w : List F} (hw : g0.weights = w) :
    g0.init = .ok (startGraph cols (effWeights C d w)) := by
  subst hgd hw
  obtain ⟨s, hd1, hd2⟩ := dataToNodes_new g0 hna hst
  obtain ⟨g, hi, hr, hph, hf, hwt⟩ := init_spec hp hna hst
  have hs : s = fun _ _ => freshSt := funext fun i => funext fun j => hd2 i j
  rw [hi, ← hwt]
  unfold Graph.init at hi
  rw [hd1] at hi
  simp only at hi
  split at hi
  · cases hi
  · rename_i last hlast
    split at hi
    · cases hi
      unfold startGraph
      rw [hlast, hsp, hs]
      rfl
    · cases hi

theorem getShortestPath_form (conv : F → F) {Q : List (PyCol F)} {d : Nat} (h : InputOK d Q)
    (weights : Option (List F)) (pq : PQ C (List F)) (method : ShortestPath.Method) :
    getShortestPath pq conv Q method weights = searchOn pq method (Q.map (asFloat32 conv))
      (startGraph (Q.map (asFloat32 conv)) (effWeights C d (weights.getD []))) := by
  obtain ⟨Q', hc1, hc2⟩ := checkDtype_ok conv h
  have hQ' := forall₂_eq_map (fun c => PyCol.arr true d (asFloat32 conv c)) hc2
  set cols := Q.map (asFloat32 conv) with hcols
  have hQ'' : Q' = cols.map fun rows => .arr true d rows := by
    rw [hQ', hcols, List.map_map]; rfl
  have hprop : Proper cols d := by
    refine ⟨by simpa [hcols] using h.ne, ?_, ?_⟩
    · intro col hcol
      obtain ⟨c, hc, rfl⟩ := List.mem_map.1 hcol
      exact (asFloat32_proper conv (h.col c hc)).1
    · intro col hcol
      obtain ⟨c, hc, rfl⟩ := List.mem_map.1 hcol
      exact (asFloat32_proper conv (h.col c hc)).2
  obtain ⟨g0, hg0, hgd, hna, hst, hwt, hsp⟩ : ∃ g0 : Graph F C, newGraph weights = g0 ∧ g0.gd = [] ∧
      g0.na = [] ∧ (∀ i j, g0.store i j = freshSt) ∧ g0.weights = weights.getD [] ∧
      g0.shortestPathCost = ⊤ := by
    cases weights <;> exact ⟨_, rfl, rfl, rfl, fun _ _ => rfl, rfl, rfl⟩
  have hi := init_startGraph (g0 := { g0 with gd := g0.gd ++ cols }) hprop hna hst (by simp [hgd]) hsp
    hwt
  have hrows : Q'.map PyCol.rows = cols := by
    rw [hQ'', List.map_map]
    exact List.map_id' cols
  have hlen : Q'.length = cols.length := by rw [hQ'']; simp
  have hadd := addColumns_ok g0 cols (d := d) (fun c hc => ⟨hprop.col c hc, hprop.dim c hc⟩)
  rw [← hQ''] at hadd
  unfold getShortestPath searchOn
  rw [hc1]
  simp only [hg0, hadd, hi, liftPy, liftCpp, Except.mapError, bind, Except.bind, hlen, hrows]
  rfl

theorem startGraph_map {φ : C → C'} (hφ : CostMap φ) (m : List F → List F')
    (cols : List (List (List F))) (w : List F) (w' : List F') :
    startGraph (cols.map (List.map m)) w' = mapGraph φ m w' (startGraph cols w) := by
  have hna : PyGraph.dataToNodeArray (cols.map (List.map m)) =
      (PyGraph.dataToNodeArray cols).map (List.map (mapNd m)) := by
    simp only [PyGraph.dataToNodeArray, List.mapIdx_eq_zipIdx_map, List.zipIdx_map, List.map_map]
    refine List.map_congr_left fun x _ => ?_
    simp [Function.comp_def, mapNd, List.zipIdx_map, List.map_map]
  unfold startGraph mapGraph
  rw [hna]
  congr 1
  · funext i j
    simp [mapStore, mapSt, freshSt, mapPar, hφ.top]
  · exact hφ.top.symm
  · simp only [List.getLast?_map]
    cases (PyGraph.dataToNodeArray cols).getLast? <;> simp
  · simp

theorem pathIndexToPath_map {α β : Type} (m : α → β) (data : List (List α)) (pi : List Int) :
    PyGraph.pathIndexToPath pi (data.map (List.map m)) =
      (PyGraph.pathIndexToPath pi data).map (List.map m) := by
  have hget : ∀ {γ δ : Type} (f : γ → δ) (l : List γ) (k : Nat),
      pyGet (l.map f) k = (pyGet l k).map f := by
    intro γ δ f l k
    unfold pyGet
    rw [List.getElem?_map]
    cases l[k]? <;> rfl
  have hint : ∀ (l : List α) (i : Int), PyGraph.pyGetInt (l.map m) i = (PyGraph.pyGetInt l i).map m := by
    intro l i
    unfold PyGraph.pyGetInt
    simp only [List.length_map, hget]
    split
    · rfl
    · split <;> rfl
  unfold PyGraph.pathIndexToPath
  generalize 0 = k
  induction pi generalizing k with
  | nil => rfl
  | cons i is ih =>
    unfold PyGraph.pathIndexFrom
    rw [hget, ih]
    cases pyGet data k with
    | error e => rfl
    | ok col =>
      simp only [Except.map, bind, Except.bind, hint]
      cases PyGraph.pyGetInt col i with
      | error e => rfl
      | ok x =>
        simp only [Except.map]
        cases PyGraph.pathIndexFrom data (k + 1) is <;> rfl

theorem searchOn_map {φ : C → C'} (hφ : CostMap φ) {m : List F → List F'}
    (hm : ∀ x, (m x).length = x.length) {w' : List F'} {g : Graph F C}
    (hw : w'.length = g.weights.length)
    (hc : ∀ x y, costFn2 (C := C') w' (m x) (m y) = φ (costFn2 g.weights x y))
    (method : ShortestPath.Method) (cols : List (List (List F))) :
    searchOn stdHeap method (cols.map (List.map m)) (mapGraph φ m w' g) =
      (searchOn stdHeap method cols g).map (mapRes φ m) := by
  have key : ∀ r : Except Fault (Graph F C),
      (do
        let g ← liftCpp (r.map (mapGraph φ m w'))
        let _ ← liftCpp g.getPathNodes
        match ← liftCpp (g.getPath (cols.map (List.map m)).length) with
        | none => .error (.fault .uninitialised)
        | some pi => do
          let cost := g.getPathCost
          let p0 ← liftPy (pyGet pi 0)
          if p0 = -1 then .ok { success := false }
          else do
            let res ← liftPy (PyGraph.pathIndexToPath pi (cols.map (List.map m)))
            .ok { success := true, path := some res, length := some cost } : Except Err (PlanRes F' C')) =
      (do
        let g ← liftCpp r
        let _ ← liftCpp g.getPathNodes
        match ← liftCpp (g.getPath cols.length) with
        | none => .error (.fault .uninitialised)
        | some pi => do
          let cost := g.getPathCost
          let p0 ← liftPy (pyGet pi 0)
          if p0 = -1 then .ok { success := false }
          else do
            let res ← liftPy (PyGraph.pathIndexToPath pi cols)
            .ok { success := true, path := some res, length := some cost } :
              Except Err (PlanRes F C)).map (mapRes φ m) := by
    intro r
    cases r with
    | error e => rfl
    | ok g =>
      simp only [Except.map, liftCpp, liftPy, Except.mapError, bind, Except.bind, getPathNodes_map hφ,
        getPath_map hφ, List.length_map, pathIndexToPath_map]
      cases g.getPathNodes with
      | error e => rfl
      | ok p =>
        simp only
        cases g.getPath cols.length with
        | error e => rfl
        | ok o =>
          cases o with
          | none => rfl
          | some pi =>
            simp only
            cases pyGet pi 0 with
            | error e => rfl
            | ok p0 =>
              simp only
              split
              · rfl
              · cases PyGraph.pathIndexToPath pi cols <;> rfl
  unfold searchOn
  cases method with
  | bfs => simp only [runBfs_map hφ hm hw hc]; exact key _
  | dijkstra => simp only [runDijkstra_map hφ hm hw hc]; exact key _
  | other => rfl

/-- **C154.** Take two calls of `get_shortest_path` whose joint values correspond through `m` and whose step
costs correspond through a map `φ` that keeps order, sums, zero and infinity.  They have the same outcome:
the same error, or the same configurations and corresponding lengths.  For every method. -/
theorem C154_same_choices {φ : C → C'} (hφ : CostMap φ) {m : List F → List F'}
    (hm : ∀ x, (m x).length = x.length) {conv : F → F} {conv' : F' → F'}
    (hconv : ∀ x, (m x).map conv' = m (x.map conv)) {d : Nat} {Q : List (PyCol F)} (hQ : InputOK d Q)
    {weights : Option (List F)} {weights' : Option (List F')}
    (hc : ∀ x y, stepCost C' (effWeights C' d (weights'.getD [])) (m x) (m y) =
      φ (stepCost C (effWeights C d (weights.getD [])) x y)) (method : ShortestPath.Method) :
    getShortestPath stdHeap conv' (Q.map (mapCol m)) method weights' =
      (getShortestPath stdHeap conv Q method weights).map (mapRes φ m) := by
  rw [getShortestPath_form conv' (mapCol_ok hm hQ), getShortestPath_form conv hQ, List.map_map]
  have : asFloat32 conv' ∘ mapCol m = List.map m ∘ asFloat32 conv :=
    funext fun c => asFloat32_mapCol hconv c
  rw [this, ← List.map_map, startGraph_map hφ m _ (effWeights C d (weights.getD []))]
  refine searchOn_map (w' := effWeights C' d (weights'.getD []))
    (g := startGraph _ (effWeights C d (weights.getD []))) hφ hm ?_ (fun x y => hc y x) method _
  show (effWeights C' d _).length = (effWeights C d _).length
  unfold effWeights
  split <;> split <;> simp_all

/-! ## Exact arithmetic -/

/-- Multiplying all costs by a positive number. -/
def scaleCost (k : ℚ) : WithTop ℚ → WithTop ℚ := WithTop.map (k * ·)

theorem scaleCost_map {k : ℚ} (hk : 0 < k) : CostMap (scaleCost k) := by
  refine ⟨?_, ?_, ?_, rfl⟩
  · intro a b
    cases a with
    | top => simp [scaleCost]
    | coe a =>
      cases b with
      | top => exact ⟨fun _ => WithTop.coe_lt_top a, fun _ => WithTop.coe_lt_top (k * a)⟩
      | coe b =>
        show ((k * a : ℚ) : WithTop ℚ) < ((k * b : ℚ) : WithTop ℚ) ↔ _
        rw [WithTop.coe_lt_coe, WithTop.coe_lt_coe]
        exact mul_lt_mul_iff_right₀ hk
  · intro a b
    cases a with
    | top => rfl
    | coe a =>
      cases b with
      | top => rfl
      | coe b =>
        show ((k * (a + b) : ℚ) : WithTop ℚ) = ((k * a + k * b : ℚ) : WithTop ℚ)
        rw [mul_add]
  · show ((k * 0 : ℚ) : WithTop ℚ) = ((0 : ℚ) : WithTop ℚ)
    rw [mul_zero]

/-- In exact arithmetic both methods return a path and its length. -/
theorem returns_rat (conv : ℚ → ℚ) {d : Nat} {Q : List (PyCol ℚ)} (hQ : InputOK d Q)
    {method : ShortestPath.Method} (hm : method = .bfs ∨ method = .dijkstra)
    (weights : Option (List ℚ)) :
    ∃ path, getShortestPath stdHeap conv Q method weights =
      .ok ⟨true, some path, some ((pathLen (weightsFor d weights) path : ℚ) : WithTop ℚ)⟩ := by
  rcases hm with rfl | rfl
  · obtain ⟨path, h, _⟩ := C10_bfs_optimal_exact stdHeap conv d Q hQ weights
    exact ⟨path, h⟩
  · obtain ⟨path, c, h1, _, h3⟩ := C11_dijkstra_sound_heap noOverflow_rat conv d Q hQ weights
      (weightsFor d weights) rfl (fun x _ y _ => by rw [stepCost_rat]; exact WithTop.coe_lt_top _)
    rw [costL_rat] at h3
    subst h3
    exact ⟨path, h1⟩

theorem mapCol_id (Q : List (PyCol F)) : Q.map (mapCol id) = Q := by
  refine (List.map_congr_left fun c _ => ?_).trans (List.map_id Q)
  rcases c with _ | ⟨b, n, rows⟩ <;> simp [mapCol]

/-- **C154**, weights: multiplying all weights by the same positive number keeps the path that either method
returns and multiplies the length by that number. -/
theorem C154_weights (conv : ℚ → ℚ) {d : Nat} {Q : List (PyCol ℚ)} (hQ : InputOK d Q)
    {method : ShortestPath.Method} (hm : method = .bfs ∨ method = .dijkstra) (w : List ℚ)
    (hw : w.length = d) (k : ℚ) (hk : 0 < k) :
    ∃ path, ∃ c : ℚ,
      getShortestPath stdHeap conv Q method (some w) = .ok ⟨true, some path, some (c : WithTop ℚ)⟩ ∧
      getShortestPath stdHeap conv Q method (some (w.map (k * ·))) =
        .ok ⟨true, some path, some ((k * c : ℚ) : WithTop ℚ)⟩ := by
  obtain ⟨path, h⟩ := returns_rat conv hQ hm (some w)
  refine ⟨path, _, h, ?_⟩
  have := C154_same_choices (scaleCost_map hk) (m := id) (fun _ => rfl) (conv := conv) (conv' := conv)
    (fun _ => rfl) hQ (weights := some w) (weights' := some (w.map (k * ·))) (fun x y => ?_) method
  · rw [mapCol_id, h] at this
    rw [this]
    simp [Except.map, mapRes, scaleCost]
  · simp only [effWeights, Option.getD_some, List.length_map, hw, if_true, stepCost_rat, id_eq]
    show _ = ((k * sqDist w x y : ℚ) : WithTop ℚ)
    congr 1
    unfold sqDist
    rw [← List.sum_map_mul_left, List.zip_map_left, List.map_map]
    congr 1
    refine List.map_congr_left fun t _ => ?_
    simp [mul_assoc]

/-- **C154**, units: with all joint values multiplied by the same number other than zero (also a negative
one), either method returns the same choice of configurations, and the length is multiplied by the square of
that number. -/
theorem C154_units (k : ℚ) (hk : k ≠ 0) (conv : ℚ → ℚ) (hconv : ∀ x, conv (k * x) = k * conv x) {d : Nat}
    {Q : List (PyCol ℚ)} (hQ : InputOK d Q) {method : ShortestPath.Method}
    (hm : method = .bfs ∨ method = .dijkstra) (weights : Option (List ℚ)) :
    ∃ path, ∃ c : ℚ,
      getShortestPath stdHeap conv Q method weights = .ok ⟨true, some path, some (c : WithTop ℚ)⟩ ∧
      getShortestPath stdHeap conv (Q.map (mapCol (List.map (k * ·)))) method weights =
        .ok ⟨true, some (path.map (List.map (k * ·))), some ((k ^ 2 * c : ℚ) : WithTop ℚ)⟩ := by
  obtain ⟨path, h⟩ := returns_rat conv hQ hm weights
  refine ⟨path, _, h, ?_⟩
  have := C154_same_choices (scaleCost_map (k := k ^ 2) (by positivity)) (m := List.map (k * ·))
    (fun _ => List.length_map _) (conv := conv) (conv' := conv)
    (fun x => by simp [Function.comp_def, hconv]) hQ (weights := weights) (weights' := weights)
    (fun x y => ?_) method
  · rw [h] at this
    rw [this]
    simp [Except.map, mapRes, scaleCost]
  · simp only [stepCost_rat]
    show _ = ((k ^ 2 * sqDist _ x y : ℚ) : WithTop ℚ)
    congr 1
    unfold sqDist
    rw [← List.sum_map_mul_left, List.zip_map, List.zip_map_right, List.map_map]
    congr 1
    refine List.map_congr_left fun t _ => ?_
    simp only [Function.comp_apply, Prod.map_apply, id_eq]
    show t.1 * (k * t.2.1 - k * t.2.2) ^ 2 = _
    ring

/-- Every joint measured from another zero. -/
def moveZero (o : Nat → ℚ) (x : List ℚ) : List ℚ := x.mapIdx fun i a => a + o i

/-- **C154**, zeros: with an offset added to the values of each joint, either method returns the same choice
of configurations and the same length. -/
theorem C154_zeros (o : Nat → ℚ) {d : Nat} {Q : List (PyCol ℚ)} (hQ : InputOK d Q)
    {method : ShortestPath.Method} (hm : method = .bfs ∨ method = .dijkstra) (weights : Option (List ℚ)) :
    ∃ path, ∃ c : ℚ,
      getShortestPath stdHeap id Q method weights = .ok ⟨true, some path, some (c : WithTop ℚ)⟩ ∧
      getShortestPath stdHeap id (Q.map (mapCol (moveZero o))) method weights =
        .ok ⟨true, some (path.map (moveZero o)), some (c : WithTop ℚ)⟩ := by
  obtain ⟨path, h⟩ := returns_rat id hQ hm weights
  refine ⟨path, _, h, ?_⟩
  have := C154_same_choices (φ := (id : WithTop ℚ → WithTop ℚ))
    ⟨fun _ _ => Iff.rfl, fun _ _ => rfl, rfl, rfl⟩ (m := moveZero o)
    (fun _ => by simp [moveZero]) (conv := id) (conv' := id)
    (fun x => by simp) hQ (weights := weights) (weights' := weights)
    (fun x y => ?_) method
  · rw [h] at this
    rw [this]
    rfl
  · simp only [stepCost_rat, id_eq]
    congr 1
    suffices hs : ∀ (w x y : List ℚ) (o : Nat → ℚ),
        sqDist w (moveZero o y) (moveZero o x) = sqDist w y x from hs _ _ _ _
    intro w
    induction w with
    | nil => intros; rfl
    | cons a w ih =>
      intro x y o
      rcases x with _ | ⟨b, x⟩
      · simp [moveZero, sqDist]
      · rcases y with _ | ⟨c, y⟩
        · simp [moveZero, sqDist]
        · have := ih x y (fun i => o (i + 1))
          simp only [sqDist, moveZero, List.mapIdx_cons, List.zip_cons_cons, List.map_cons,
            List.sum_cons] at this ⊢
          rw [this]
          congr 2
          ring

/-- The columns of C141, on which Dijkstra's search misses the shortest path, with three times the weight. -/
example : getShortestPath (C := WithTop ℚ) stdHeap id manySamples .dijkstra (some [3]) =
    .ok ⟨true, some [[6], [8], [7], [9], [10]], some ((30 : ℚ) : WithTop ℚ)⟩ := by
  obtain ⟨path, c, h1, h2⟩ := C154_weights id manySamples_ok (.inr rfl) [1] rfl 3 (by norm_num)
  rw [C141_longer.2] at h1
  simp only [Except.ok.injEq, PlanRes.mk.injEq, Option.some.injEq, WithTop.coe_inj, true_and] at h1
  obtain ⟨rfl, rfl⟩ := h1
  norm_num at h2
  exact h2

/-- The same columns in half the unit and the other direction. -/
example : getShortestPath (C := WithTop ℚ) stdHeap id (manySamples.map (mapCol (List.map (-2 * ·)))) .dijkstra
      (some [1]) =
    .ok ⟨true, some [[-12], [-16], [-14], [-18], [-20]], some ((40 : ℚ) : WithTop ℚ)⟩ := by
  obtain ⟨path, c, h1, h2⟩ := C154_units (-2) (by norm_num) id (fun _ => rfl) manySamples_ok
    (.inr rfl : ShortestPath.Method.dijkstra = _ ∨ _) (some [1])
  rw [C141_longer.2] at h1
  simp only [Except.ok.injEq, PlanRes.mk.injEq, Option.some.injEq, WithTop.coe_inj, true_and] at h1
  obtain ⟨rfl, rfl⟩ := h1
  have e : [[6], [8], [7], [9], [10]].map (List.map ((-2 : ℚ) * ·)) =
      [[-12], [-16], [-14], [-18], [-20]] := by norm_num
  have e' : (-2 : ℚ) ^ 2 * 10 = 40 := by norm_num
  rw [e, e'] at h2
  exact h2

/-- The same columns with another zero. -/
example : getShortestPath (C := WithTop ℚ) stdHeap id (manySamples.map (mapCol (moveZero fun _ => 5)))
      .dijkstra (some [1]) =
    .ok ⟨true, some [[11], [13], [12], [14], [15]], some ((10 : ℚ) : WithTop ℚ)⟩ := by
  obtain ⟨path, c, h1, h2⟩ := C154_zeros (fun _ => 5) manySamples_ok
    (.inr rfl : ShortestPath.Method.dijkstra = _ ∨ _) (some [1])
  rw [C141_longer.2] at h1
  simp only [Except.ok.injEq, PlanRes.mk.injEq, Option.some.injEq, WithTop.coe_inj, true_and] at h1
  obtain ⟨rfl, rfl⟩ := h1
  have e : [[6], [8], [7], [9], [10]].map (moveZero fun _ => 5) = [[11], [13], [12], [14], [15]] := by
    norm_num [moveZero]
  rw [e] at h2
  exact h2

end Verif.Props
