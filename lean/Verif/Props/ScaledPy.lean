import Verif.Props.Scaled

/-!
# C154 for the searches of `pygraph.py`

The three functions of `pygraph.py` take the cost function as an argument.  With data that correspond through a
map, costs that correspond through a map that keeps sums and the order, and the limit of a step mapped the
same way, they have the same outcome.
-/

set_option linter.unusedSectionVars false

namespace Verif.Props

open Verif Verif.Search Verif.Spec

section

variable {α β C C' : Type} [CostArith C] [CostArith C'] {φ : C → C'} (hφ : CostMap φ) (m : α → β)

/-- The graph of the other run. -/
def mapPyGraph (φ : C → C') (m : α → β) (g : PyGraph.Graph α C) : PyGraph.Graph β C' :=
  ⟨g.data.map (List.map m), g.nodeArray.map (List.map (mapNd m)), mapStore φ m g.store,
    φ g.latestTotalCost⟩

/-- The dictionary of the other run. -/
def mapPyRes (φ : C → C') (m : α → β) (r : PyGraph.Res α C) : PyGraph.Res β C' :=
  ⟨r.success, r.path.map (List.map m), r.totalCost.map φ, r.i, r.stuck, r.singlePath, r.splitPoints,
    r.extraSegments.map (List.map fun x => (x.1.map m, φ x.2)), r.doNotReachEnd⟩

theorem pyGet_listMap {γ δ : Type} (f : γ → δ) (l : List γ) (k : Nat) :
    pyGet (l.map f) k = (pyGet l k).map f := by
  unfold pyGet
  rw [List.getElem?_map]
  cases l[k]? <;> rfl

theorem getNeighbours_map (g : PyGraph.Graph α C) (u : Nd α) :
    (mapPyGraph φ m g).getNeighbours (mapNd m u) = (g.getNeighbours u).map (mapNd m) := by
  unfold PyGraph.Graph.getNeighbours
  simp only [mapPyGraph, List.length_map, List.getElem?_map]
  have : (mapNd m u).pi = u.pi := rfl
  rw [this]
  split
  · rfl
  · cases g.nodeArray[u.pi + 1]? <;> rfl

theorem py_trace_map (s : Store C α) (fuel : Nat) (n : Nd α) :
    PyGraph.trace (mapStore φ m s) fuel (mapNd m n) = PyGraph.trace s fuel n := by
  induction fuel generalizing n with
  | zero => rfl
  | succ fuel ih =>
    unfold PyGraph.trace
    have h2 : ((mapStore φ m s).at (mapNd m n)).parent = mapPar m (s.at n).parent := rfl
    rw [h2]
    cases (s.at n).parent with
    | none => rfl
    | dummy => rfl
    | node u =>
      simp only [mapPar, ih]
      rfl

theorem reached_map (g : PyGraph.Graph α C) (i : Nat) :
    (mapPyGraph φ m g).reached i = g.reached i := by
  unfold PyGraph.Graph.reached
  simp only [mapPyGraph, List.getElem?_map]
  cases g.nodeArray[i]? with
  | none => rfl
  | some col =>
    simp only [Option.map_some, Option.getD_some, List.any_map]
    congr 1
    funext n
    have h2 : ((mapStore φ m g.store).at (mapNd m n)).parent = mapPar m (g.store.at n).parent := rfl
    simp only [Function.comp_apply, h2]
    cases (g.store.at n).parent <;> rfl

theorem findPartialPath_map (g : PyGraph.Graph α C) :
    (mapPyGraph φ m g).findPartialPath = g.findPartialPath := by
  have h : ∀ k, (mapPyGraph φ m g).findLoop k = g.findLoop k := by
    intro k
    induction k with
    | zero => rfl
    | succ k ih => unfold PyGraph.Graph.findLoop; rw [reached_map, ih]
  unfold PyGraph.Graph.findPartialPath
  rw [h]
  simp [mapPyGraph]

include hφ

theorem py_reset_map (g : PyGraph.Graph α C) :
    (mapPyGraph φ m g).reset = mapPyGraph φ m g.reset := by
  unfold PyGraph.Graph.reset
  simp only [mapPyGraph, hφ.top, ← List.map_flatten]
  congr 1
  generalize g.nodeArray.flatten = l
  generalize g.store = s
  induction l generalizing s with
  | nil => rfl
  | cons n l ih =>
    rw [List.map_cons, List.foldl_cons, List.foldl_cons, ← ih]
    congr 1
    rw [← mapStore_upd]
    simp [mapSt, PyGraph.freshSt, mapPar, hφ.top]

theorem py_new_map (data : List (List α)) :
    (PyGraph.Graph.new (data.map (List.map m)) : PyGraph.Graph β C') =
      mapPyGraph φ m (PyGraph.Graph.new data) := by
  have hna : PyGraph.dataToNodeArray (data.map (List.map m)) =
      (PyGraph.dataToNodeArray data).map (List.map (mapNd m)) := by
    simp only [PyGraph.dataToNodeArray, List.mapIdx_eq_zipIdx_map, List.zipIdx_map, List.map_map]
    refine List.map_congr_left fun x _ => ?_
    simp [Function.comp_def, mapNd, List.zipIdx_map, List.map_map]
  unfold PyGraph.Graph.new mapPyGraph
  rw [hna]
  congr 1
  · funext i j
    simp [mapStore, mapSt, PyGraph.freshSt, mapPar, hφ.top]
  · exact hφ.top.symm

theorem py_closest_map (s : Store C α) (col : List (Nd α)) :
    PyGraph.closest (mapStore φ m s) (col.map (mapNd m)) =
      (φ (PyGraph.closest s col).1, (PyGraph.closest s col).2.map (mapNd m)) := by
  unfold PyGraph.closest
  rw [← hφ.top]
  suffices h : ∀ acc : C × Option (Nd α),
      (col.map (mapNd m)).foldl (fun (acc : C' × Option (Nd β)) n =>
        if ((mapStore φ m s).at n).dist < acc.1 then (((mapStore φ m s).at n).dist, some n) else acc)
        (φ acc.1, acc.2.map (mapNd m)) =
      (φ (col.foldl (fun (acc : C × Option (Nd α)) n =>
        if (s.at n).dist < acc.1 then ((s.at n).dist, some n) else acc) acc).1,
       (col.foldl (fun (acc : C × Option (Nd α)) n =>
        if (s.at n).dist < acc.1 then ((s.at n).dist, some n) else acc) acc).2.map (mapNd m)) from
    h (⊤, none)
  intro acc
  induction col generalizing acc with
  | nil => rfl
  | cons x col ih =>
    rw [List.map_cons, List.foldl_cons, List.foldl_cons, ← ih]
    congr 1
    simp only [mapStore_dist, hφ.lt]
    split <;> rfl

theorem py_getPath_map (g : PyGraph.Graph α C) (target : Option Nat) (fuel : Nat) :
    (mapPyGraph φ m g).getPath target fuel =
      (g.getPath target fuel).map fun r => (mapPyGraph φ m r.1, r.2) := by
  unfold PyGraph.Graph.getPath
  simp only [mapPyGraph, List.length_map, pyGet_listMap]
  cases pyGet g.nodeArray (target.getD (g.data.length - 1)) with
  | error e => rfl
  | ok col =>
    simp only [Except.map, bind, Except.bind, py_closest_map hφ]
    rcases PyGraph.closest g.store col with ⟨c, _ | node⟩
    · rfl
    · simp only [Option.map_some, py_trace_map]
      cases PyGraph.trace g.store fuel node <;> rfl

variable {cost : α → α → C} {cost' : β → β → C'}

theorem py_runBfs_map (hcost : ∀ x y, cost' (m x) (m y) = φ (cost x y)) (g : PyGraph.Graph α C)
    (lim : C) (start fuel : Nat) :
    (mapPyGraph φ m g).runBfs cost' (φ lim) start fuel =
      (g.runBfs cost lim start fuel).map (mapPyGraph φ m) := by
  unfold PyGraph.Graph.runBfs
  rw [py_reset_map hφ]
  have hna : (mapPyGraph φ m g.reset).nodeArray = g.reset.nodeArray.map (List.map (mapNd m)) := rfl
  simp only [hna, pyGet_listMap]
  cases pyGet g.reset.nodeArray start with
  | error e => rfl
  | ok col =>
    simp only [Except.map, bind, Except.bind]
    have h1 : startCol fifoPush (col.map (mapNd m)) ((mapPyGraph φ m g.reset).store, []) =
        mapRun φ m (List.map (mapNd m)) (startCol fifoPush col (g.reset.store, [])) :=
      startCol_map (push := fifoPush) (push' := fifoPush) (qm := List.map (mapNd m)) hφ m
        (fun s q n => by simp [fifoPush]) col (g.reset.store, [])
    have h2 := bfsLoop_map hφ m (cost := fun u v => cost u.data v.data)
      (cost' := fun u v => cost' u.data v.data)
      (nbs := g.reset.getReachableNeighbours cost lim)
      (nbs' := (mapPyGraph φ m g.reset).getReachableNeighbours cost' (φ lim))
      (fun u v => hcost _ _) (fun u => by
        unfold PyGraph.Graph.getReachableNeighbours
        rw [getNeighbours_map, List.filter_map]
        congr 1
        refine List.filter_congr fun v _ => ?_
        have : (cost' (mapNd m u).data (mapNd m v).data < φ lim) ↔ cost u.data v.data < lim := by
          show cost' (m u.data) (m v.data) < φ lim ↔ _
          rw [hcost, hφ.lt]
        simp only [Function.comp_apply, this]) fuel (startCol fifoPush col (g.reset.store, []))
    rw [h1, h2]
    cases bfsLoop (fun u v => cost u.data v.data) (g.reset.getReachableNeighbours cost lim) fuel
      (startCol fifoPush col (g.reset.store, [])) <;> rfl

omit hφ in
theorem searchFuel_map (data : List (List α)) :
    PyGraph.searchFuel (data.map (List.map m)) = PyGraph.searchFuel data := by
  unfold PyGraph.searchFuel
  simp [List.map_map, Function.comp_def]

/-- **C154** for `pygraph.get_shortest_path`. -/
theorem C154_pygraph (hcost : ∀ x y, cost' (m x) (m y) = φ (cost x y)) (data : List (List α)) :
    PyGraph.getShortestPath cost' (data.map (List.map m)) =
      (PyGraph.getShortestPath cost data).map (mapPyRes φ m) := by
  unfold PyGraph.getShortestPath
  rw [searchFuel_map, py_new_map hφ, ← hφ.top, py_runBfs_map hφ m hcost]
  cases (PyGraph.Graph.new data).runBfs cost ⊤ 0 (PyGraph.searchFuel data) with
  | error e => rfl
  | ok g =>
    simp only [Except.map, bind, Except.bind, py_getPath_map hφ]
    cases g.getPath none (PyGraph.searchFuel data) with
    | error e => rfl
    | ok r =>
      obtain ⟨g', pi⟩ := r
      simp only
      cases pyGet pi 0 with
      | error e => rfl
      | ok p0 =>
        simp only
        split
        · rfl
        · rw [pathIndexToPath_map]
          cases PyGraph.pathIndexToPath pi data <;> rfl

/-- **C154** for `pygraph.get_shortest_partial_path`. -/
theorem C154_pygraph_partial_path (hcost : ∀ x y, cost' (m x) (m y) = φ (cost x y))
    (data : List (List α)) (lim : C) :
    PyGraph.getShortestPartialPath cost' (data.map (List.map m)) (φ lim) =
      (PyGraph.getShortestPartialPath cost data lim).map (mapPyRes φ m) := by
  unfold PyGraph.getShortestPartialPath
  rw [searchFuel_map, py_new_map hφ, py_runBfs_map hφ m hcost]
  cases (PyGraph.Graph.new data).runBfs cost lim 0 (PyGraph.searchFuel data) with
  | error e => rfl
  | ok g =>
    simp only [Except.map, bind, Except.bind, py_getPath_map hφ]
    cases g.getPath none (PyGraph.searchFuel data) with
    | error e => rfl
    | ok r =>
      obtain ⟨g', pi⟩ := r
      simp only
      cases pyGet pi 0 with
      | error e => rfl
      | ok p0 =>
        simp only [findPartialPath_map, py_getPath_map hφ]
        split
        · split
          · rfl
          · cases g'.getPath (some g'.findPartialPath.toNat) (PyGraph.searchFuel data) with
            | error e => rfl
            | ok r =>
              obtain ⟨g'', pi1⟩ := r
              simp only [Except.map, pathIndexToPath_map]
              cases PyGraph.pathIndexToPath pi1 data <;> rfl
        · rw [pathIndexToPath_map]
          cases PyGraph.pathIndexToPath pi data <;> rfl

/-- The local variables of the other run. -/
def mapSeg (φ : C → C') (m : α → β) (st : PyGraph.SegSt α C) : PyGraph.SegSt β C' :=
  ⟨st.currentData.map (List.map m), st.currentStart, st.finished, st.paths.map (List.map m), st.starts,
    st.costs.map φ⟩

omit hφ in
theorem key_map {γ δ : Type} (f : γ → δ) (o : Option γ) :
    PyGraph.key (o.map f) = (PyGraph.key o).map f := by
  cases o <;> rfl

theorem segLoop_map (hcost : ∀ x y, cost' (m x) (m y) = φ (cost x y)) (data : List (List α)) (lim : C)
    (fuel : Nat) (st : PyGraph.SegSt α C) :
    PyGraph.segLoop cost' (φ lim) (data.map (List.map m)) fuel (mapSeg φ m st) =
      (PyGraph.segLoop cost lim data fuel st).map (Sum.map (mapSeg φ m) (mapPyRes φ m)) := by
  induction fuel generalizing st with
  | zero =>
    unfold PyGraph.segLoop
    simp only [mapSeg, List.length_map]
    split <;> rfl
  | succ fuel ih =>
    unfold PyGraph.segLoop
    simp only [mapSeg, List.length_map]
    split
    · rw [C154_pygraph_partial_path hφ m hcost]
      cases PyGraph.getShortestPartialPath cost st.currentData lim with
      | error e => rfl
      | ok res =>
        obtain ⟨suc, pth, tc, i0, stk, sp, spl, ex, dn⟩ := res
        simp only [Except.map, bind, Except.bind, mapPyRes, key_map]
        split
        · cases PyGraph.key pth with
          | error e => rfl
          | ok p =>
            simp only [Except.map]
            cases PyGraph.key tc with
            | error e => rfl
            | ok c =>
              simp only [Except.map]
              have := ih { st with finished := true, paths := st.paths ++ [p],
                                   starts := st.starts ++ [st.currentStart], costs := st.costs ++ [c] }
              simp only [mapSeg, List.map_append, List.map_cons, List.map_nil] at this
              rw [this]
              rfl
        · cases i0 with
          | none => rfl
          | some i =>
            simp only
            cases PyGraph.key pth with
            | error e => rfl
            | ok p =>
              simp only [Except.map]
              cases PyGraph.key tc with
              | error e => rfl
              | ok c =>
                simp only [Except.map]
                have := ih { st with currentStart := (i + 1).toNat, currentData := data.drop (i + 1).toNat,
                                     paths := st.paths ++ [p], starts := st.starts ++ [(i + 1).toNat],
                                     costs := st.costs ++ [c] }
                simp only [mapSeg, List.map_append, List.map_cons, List.map_nil, List.map_drop] at this
                rw [this]
                rfl
    · rfl

/-- **C154** for `pygraph.get_shortest_path_segments`. -/
theorem C154_pygraph_segments (hcost : ∀ x y, cost' (m x) (m y) = φ (cost x y)) (data : List (List α))
    (lim : C) (fuel : Nat) :
    PyGraph.getShortestPathSegments cost' (data.map (List.map m)) (φ lim) fuel =
      (PyGraph.getShortestPathSegments cost data lim fuel).map (mapPyRes φ m) := by
  unfold PyGraph.getShortestPathSegments
  have h := segLoop_map hφ m hcost data lim fuel ⟨data, 0, false, [], [], []⟩
  simp only [mapSeg, List.map_nil] at h
  rw [h]
  cases PyGraph.segLoop cost lim data fuel ⟨data, 0, false, [], [], []⟩ with
  | error e => rfl
  | ok r =>
    cases r with
    | inr res => rfl
    | inl st =>
      simp only [Except.map, bind, Except.bind, Sum.map_inl, mapSeg, pyGet_listMap, List.length_map]
      cases pyGet st.paths 0 with
      | error e => rfl
      | ok p =>
        simp only
        cases pyGet st.costs 0 with
        | error e => rfl
        | ok c =>
          simp only
          split
          · split
            · rfl
            · have e : ((st.paths.map (List.map m)).zip (st.costs.map φ)).drop 1 =
                  ((st.paths.zip st.costs).drop 1).map fun x => (x.1.map m, φ x.2) := by
                rw [List.zip_map, ← List.map_drop]; rfl
              rw [e]
              rfl
          · rfl

end

/-! ## Concrete cases -/

/-- Samples that split into two segments when a step may cost less than 10, and the same in half the unit:
both calls find the same segments, the costs four times as high. -/
example : PyGraph.getShortestPathSegments (fun x y : ℚ => (((x - y) ^ 2 : ℚ) : WithTop ℚ))
      ([[0, 4], [1, 6], [20, 30], [21, 22], [23]].map (List.map (2 * ·))) ((40 : ℚ) : WithTop ℚ) 6 =
    (PyGraph.getShortestPathSegments (fun x y : ℚ => (((x - y) ^ 2 : ℚ) : WithTop ℚ))
      [[0, 4], [1, 6], [20, 30], [21, 22], [23]] ((10 : ℚ) : WithTop ℚ) 6).map
        (mapPyRes (scaleCost 4) (2 * ·)) := by
  have h := C154_pygraph_segments (scaleCost_map (k := 4) (by norm_num)) (fun x : ℚ => 2 * x)
    (cost := fun x y : ℚ => (((x - y) ^ 2 : ℚ) : WithTop ℚ))
    (cost' := fun x y : ℚ => (((x - y) ^ 2 : ℚ) : WithTop ℚ)) (fun x y => by
      show _ = ((4 * (x - y) ^ 2 : ℚ) : WithTop ℚ)
      congr 1
      ring) [[0, 4], [1, 6], [20, 30], [21, 22], [23]] ((10 : ℚ) : WithTop ℚ) 6
  have e : scaleCost 4 ((10 : ℚ) : WithTop ℚ) = ((40 : ℚ) : WithTop ℚ) := by
    show ((4 * 10 : ℚ) : WithTop ℚ) = _
    norm_num
  rw [e] at h
  exact h

/-- What the second call of the example returns: two segments. -/
example : (PyGraph.getShortestPathSegments (fun x y : ℚ => (((x - y) ^ 2 : ℚ) : WithTop ℚ))
      [[0, 4], [1, 6], [20, 30], [21, 22], [23]] ((10 : ℚ) : WithTop ℚ) 6).toOption.map
        (fun r => (r.success, r.path, r.extraSegments.map (List.map Prod.fst))) =
    some (true, some [0, 1], some [[20, 21, 23]]) := by
  decide +kernel

end Verif.Props
