import Verif.Props.Dp
import Verif.Props.PyGraph
import Verif.Props.ShortestPath
import Verif.Props.Io
import Verif.Props.Geometry

/-!
# The project's own tests, run on the model

The code cannot be run here, so these are the only observations of its behaviour there are: what
the authors wrote down as expected.  Every fixed test of /repo/tests that does more than construct an
object is repeated on the model.  They are tests of the model, not proofs of properties.
-/

namespace Verif.Props

section
open Verif.Dp

/-- tests/test_dp.py:7-33 (hidden there by the second function of the same name) -/
def testCosts : List (Mat ℤ) :=
  [⟨1, 3, fun _ j => [550, 900, 770].getD j 0⟩,
   ⟨3, 3, fun i j => ([[680, 790, 1050], [580, 760, 660], [510, 700, 830]].getD i []).getD j 0⟩,
   ⟨3, 2, fun i j => ([[610, 790], [540, 940], [790, 270]].getD i []).getD j 0⟩,
   ⟨2, 1, fun i _ => [1030, 1390].getD i 0⟩]

example : (calculateValueFunction testCosts).toOption =
    some ([[0], [0, 0, 0], [0, 0, 1], [0, 0], [0]],
      [[2870], [2320, 2220, 2150], [1640, 1570, 1660], [1030, 1390], [0]]) := by decide +kernel

/-- tests/test_dp.py:43-45 -/
def testData : List (List (List ℤ)) :=
  [[[0, 0], [0, 1]], [[1, -1], [1, 0], [1, 1]], [[0, 2], [2, 2]]]

/-- tests/test_dp.py:55-61: the L1 norm as the cost. -/
def testCost (x y : List ℤ) : ℤ := (List.zipWith (fun a b => |a - b|) x y).sum

/-- tests/test_dp.py:54-68 -/
example : (applyCostFunction (allPairs testCost []) testData).map
      (fun m => (List.range m.r).map fun i => (List.range m.c).map fun j => m.e i j) =
    [[[2, 1, 2], [3, 2, 1]], [[4, 4], [3, 3], [2, 2]]] := by decide +kernel

/-- tests/test_dp.py:71-81 -/
example : (calculateValueFunction (applyCostFunction (allPairs testCost []) testData)).toOption =
    some ([[1, 2], [0, 0, 0], [0, 0]], [[4, 3], [4, 3, 2], [0, 0]]) := by decide +kernel

/-- tests/test_dp.py:84-91 -/
example : (extractShortestPath testData [[1, 2], [0, 0, 0], [0, 0]]
      [[4, 3], [4, 3, 2], [0, (0 : ℤ)]]).toOption = some [[0, 1], [1, 1], [0, 2]] := by
  decide +kernel

end

section
open Verif.PyGraph

/-- The cost function of tests/test_pygraph.py:47-51, now commented out at pygraph.py:12-13. -/
def testCostP (x y : List ℤ) : WithTop Nat :=
  (((List.zipWith (fun a b => |a - b|) x y).sum.toNat : Nat) : WithTop Nat)

/-- tests/test_pygraph.py:8-15 -/
def testData1 : List (List (List ℤ)) :=
  [[[0, 0]], [[1, -1], [1, 0], [1, 1]], [[0, 2], [2, 2]], [[4, 5], [5, 9]], [[4, 6], [5, 10]],
   [[4, 13], [5, 11]]]

/-- tests/test_pygraph.py:21-28 -/
def testData4 : List (List (List ℤ)) :=
  [[[0, 0]], [[1, -1], [1, 0], [1, 1]], [[0, 2], [2, 2]], [[4, 5], [5, 9]], [[4, 6], [5, 10]],
   [[99, 99], [99, 99]]]

/-- tests/test_pygraph.py:67-73 -/
example : (getShortestPath testCostP testData1).toOption.map
      (fun r => ((r.success, r.totalCost), r.singlePath, r.path)) =
    some ((true, some 16), some true,
      some [[0, 0], [1, 0], [2, 2], [4, 5], [4, 6], [5, 11]]) := by decide +kernel

/-- tests/test_pygraph.py:76-78 -/
example : (getShortestPath testCostP [[[0, 0]], [], [[-2, -2], [2, 2]]]).toOption.map
    (fun r => r.success) = some false := by decide +kernel

/-- tests/test_pygraph.py:82-94 -/
example : (getShortestPathSegments testCostP testData1 5 10).toOption.map
      (fun r => ((r.success, r.totalCost), r.singlePath, r.path)) =
    some ((true, some 4), some false, some [[0, 0], [1, 0], [0, 2]]) := by decide +kernel

example : (getShortestPathSegments testCostP testData1 5 10).toOption.map
      (fun r => (r.splitPoints, r.extraSegments.map fun l => l.map Prod.fst)) =
    some (some [3, 3], some [[[5, 9], [5, 10], [5, 11]]]) := by decide +kernel

example : (getShortestPathSegments testCostP testData1 5 10).toOption.map
    (fun r => r.extraSegments.map fun l => l.map Prod.snd) = some (some [2]) := by decide +kernel

/-- tests/test_pygraph.py:96-99 -/
example : (getShortestPathSegments testCostP testData1 2 10).toOption.map
    (fun r => (r.success, r.stuck)) = some (false, true) := by decide +kernel

/-- tests/test_pygraph.py:101-107 -/
example : (getShortestPathSegments testCostP testData1 20 10).toOption.map
      (fun r => ((r.success, r.totalCost), r.singlePath, r.path)) =
    some ((true, some 16), some true,
      some [[0, 0], [1, 0], [2, 2], [4, 5], [4, 6], [5, 11]]) := by decide +kernel

/-- tests/test_pygraph.py:109-114 -/
example : (getShortestPathSegments testCostP testData4 20 10).toOption.map
      (fun r => (r.success, r.totalCost, r.path)) =
    some (false, some 10, some [[0, 0], [1, 0], [2, 2], [4, 5], [4, 6]]) := by decide +kernel

end

section
open Verif.CppGraph

/-- tests/test_graph.py:18-28 -/
example : (Graph.calls (F := ℚ) (C := WithTop ℚ) stdHeap Graph.new
      [.addColumn [0, 0, 0, 1] 2 2, .addColumn [1, -1, 1, 0, 1, 1] 3 2, .addColumn [0, 2, 2, 2] 2 2,
       .init, .runDijkstra, .getPath 3]).toOption.map (fun r => r.2.filterMap fun
        | .path p => some p
        | _ => none) = some [some [1, 2, 0]] := by decide +kernel

end

section
open Matrix Verif.Geometry Verif.Util

/-- The corners of a box, placed by a rotation and a position. -/
theorem vertices_mkTf (a b c : ℝ) (R : M3) (p : V3) : (Shape.mk a b c).getVertices (mkTf R p) =
    ![R *ᵥ ![-(a / 2), b / 2, c / 2] + p, R *ᵥ ![-(a / 2), b / 2, -(c / 2)] + p,
      R *ᵥ ![-(a / 2), -(b / 2), c / 2] + p, R *ᵥ ![-(a / 2), -(b / 2), -(c / 2)] + p,
      R *ᵥ ![a / 2, b / 2, c / 2] + p, R *ᵥ ![a / 2, b / 2, -(c / 2)] + p,
      R *ᵥ ![a / 2, -(b / 2), c / 2] + p, R *ᵥ ![a / 2, -(b / 2), -(c / 2)] + p] := by
  simp only [Shape.getVertices, tfApply, rotPart_mkTf, posPart_mkTf]

/-- tests/test_geometry.py:15-30 -/
example : (Shape.mk 1 2 3).getVertices 1 =
    ![![-0.5, 1, 1.5], ![-0.5, 1, -1.5], ![-0.5, -1, 1.5], ![-0.5, -1, -1.5],
      ![0.5, 1, 1.5], ![0.5, 1, -1.5], ![0.5, -1, 1.5], ![0.5, -1, -1.5]] := by
  rw [← mkTf_one, vertices_mkTf]
  norm_num

/-- tests/test_geometry.py:32-38 -/
example : getNormals 1 =
    ![![1, 0, 0], ![-1, 0, 0], ![0, 1, 0], ![0, -1, 0], ![0, 0, 1], ![0, 0, -1]] := by
  rw [← mkTf_one]
  simp [getNormals, rotPart_mkTf]

/-- tests/test_geometry.py:40-57 -/
example : (Shape.mk 1 2 3).getVertices (mkTf 1 ![10.5, 0, 0]) =
    ![![10, 1, 1.5], ![10, 1, -1.5], ![10, -1, 1.5], ![10, -1, -1.5],
      ![11, 1, 1.5], ![11, 1, -1.5], ![11, -1, 1.5], ![11, -1, -1.5]] := by
  rw [vertices_mkTf]
  norm_num

/-- tests/test_geometry.py:59-77 -/
example : (Shape.mk 1 2 3).getVertices (mkTf !![1, 0, 0; 0, 0, -1; 0, 1, 0] ![0, 0, 0]) =
    ![![-0.5, -1.5, 1], ![-0.5, 1.5, 1], ![-0.5, -1.5, -1], ![-0.5, 1.5, -1],
      ![0.5, -1.5, 1], ![0.5, 1.5, 1], ![0.5, -1.5, -1], ![0.5, 1.5, -1]] := by
  have h : ∀ a b c : ℝ, !![1, 0, 0; 0, 0, -1; 0, 1, 0] *ᵥ ![a, b, c] = ![a, -c, b] := by
    intro a b c
    ext i; fin_cases i <;> simp [Matrix.mulVec, dotProduct, Fin.sum_univ_three]
  rw [vertices_mkTf]
  simp only [h]
  norm_num

/-- tests/test_geometry.py:79-88: there are twelve edges, and the first joins the first two corners. -/
example (s : Shape) : s.getEdges 1 0 = (s.getVertices 1 0, s.getVertices 1 1) := rfl

/-- tests/test_geometry.py:90-98 -/
example : ((Shape.mk 1 2 3).getPolyhedron 1).A =
      ![![1, 0, 0], ![-1, 0, 0], ![0, 1, 0], ![0, -1, 0], ![0, 0, 1], ![0, 0, -1]] ∧
    ((Shape.mk 1 2 3).getPolyhedron 1).b = ![0.5, 0.5, 1, 1, 1.5, 1.5] := by
  rw [← mkTf_one]
  constructor
  · simp [Shape.getPolyhedron, getNormals, rotPart_mkTf]
  · ext i
    fin_cases i <;> norm_num [Shape.getPolyhedron, posPart_mkTf]

/-- tests/test_geometry.py:100-111 and 138-152, for every rotation and position: the rows are the rows
at the origin times the transposed rotation, and the offsets grow by the rows times the position. -/
example (R : M3) (p : V3) (i : Fin 6) :
    ((Shape.mk 1 2 3).getPolyhedron (mkTf R p)).A i = ((Shape.mk 1 2 3).getPolyhedron 1).A i ᵥ* Rᵀ ∧
    ((Shape.mk 1 2 3).getPolyhedron (mkTf R p)).b i = ((Shape.mk 1 2 3).getPolyhedron 1).b i +
      (((Shape.mk 1 2 3).getPolyhedron 1).A i ᵥ* Rᵀ) ⬝ᵥ p := by
  have hA : ∀ i, ((Shape.mk 1 2 3).getPolyhedron (mkTf R p)).A i =
      ((Shape.mk 1 2 3).getPolyhedron 1).A i ᵥ* Rᵀ := by
    intro i
    rw [Matrix.vecMul_transpose, ← mkTf_one]
    simp only [Shape.getPolyhedron, getNormals, rotPart_mkTf, Matrix.one_mulVec]
    fin_cases i <;> rfl
  refine ⟨hA i, ?_⟩
  rw [← hA i, ← mkTf_one]
  simp [Shape.getPolyhedron, posPart_mkTf]

/-- tests/test_geometry.py:113-127, with the exact answer for the collision library. -/
example :
    shapeInCollision boxOracle (Shape.mk 1 1 1) 1 (Shape.mk 1 1 2) 1 = true ∧
    shapeInCollision boxOracle (Shape.mk 1 1 1) 1 (Shape.mk 1 2 1)
      (poseZ (Real.pi / 4) 0.7 0.7 0) = true ∧
    shapeInCollision boxOracle (Shape.mk 1 1 1) (poseZ 0 (-1) (-1) 0) (Shape.mk 1 1 2)
      (poseZ (Real.pi / 4) (-2) (-2) 0) = false := by
  have h2 : (Real.sqrt 2) ^ 2 = 2 := Real.sq_sqrt (by norm_num)
  have hpos := Real.sqrt_nonneg 2
  have hlt : Real.sqrt 2 < 1.5 := by rw [Real.sqrt_lt' (by norm_num)]; norm_num
  have hgt : 1.41 < Real.sqrt 2 := by rw [Real.lt_sqrt (by norm_num)]; norm_num
  refine ⟨?_, ?_, ?_⟩
  · rw [shapeInCollision, boxOracle_iff]
    exact ⟨0, by norm_num [boxPoints, place], 0, by norm_num [boxPoints, place], by simp [place]⟩
  · rw [shapeInCollision, boxOracle_iff]
    refine ⟨![0.5, 0.5, 0], by
      refine ⟨?_, ?_, ?_⟩ <;> simp only [place, Matrix.cons_val] <;> norm_num [abs_of_pos],
      ![-(0.2 * Real.sqrt 2), 0, 0], ?_, ?_⟩
    · refine ⟨?_, by norm_num [place], by
        simp only [place, Matrix.cons_val]; norm_num⟩
      rw [abs_le]
      constructor <;> norm_num [place] <;> linarith
    · have hr : rotPart (poseZ (Real.pi / 4) 0.7 0.7 0) = rotZ (Real.pi / 4) := by
        ext i j; fin_cases i <;> fin_cases j <;> rfl
      have hp : posPart (poseZ (Real.pi / 4) 0.7 0.7 0) = ![0.7, 0.7, 0] := by
        ext i; fin_cases i <;> rfl
      rw [← mkTf_one]
      simp only [place, rotPart_mkTf, posPart_mkTf, Matrix.one_mulVec, add_zero, hr, hp]
      ext i
      fin_cases i <;> simp [rotZ, Matrix.mulVec, dotProduct, Fin.sum_univ_three] <;> nlinarith
  · rw [← Bool.not_eq_true, shapeInCollision, boxOracle_iff]
    rintro ⟨u, hu, v, hv, h⟩
    have e0 := congrFun h 0
    have e1 := congrFun h 1
    simp [place, rotPart, posPart, poseZ, Matrix.mulVec, dotProduct, Fin.sum_univ_three] at e0 e1
    obtain ⟨u0, u1, -⟩ := hu
    obtain ⟨v0, v1, -⟩ := hv
    rw [abs_le] at u0 u1 v0 v1
    simp only [place] at u0 u1 v0 v1
    nlinarith [u0.1, u1.1, v0.2, v1.2]

end

section
open Verif.Path Verif.Io

/-- tests/test_path.py:20-24 -/
example : (TolNum.new 0 4 none 5 >>= TolNum.discretise) = .ok [0, 1, 2, 3, 4] := by
  change linspace 0 4 5 = _
  norm_num [linspace]
  rw [show Int.toNat 5 = 5 from rfl]
  norm_num [List.range_succ]

/-- tests/test_io.py:4-34 -/
example : ∃ pts, parsePath
    ⟨some { type := some "LINE", tolerance := some "orientation_free",
            startPose := some ⟨some ![0.8, -0.2, 0.2], some [0, 0, 0]⟩,
            endPoint := some ![0.8, 0.2, 0.2], numPoints := some 10 },
     some [{ type := some "box", size := some [0.5, 0.5, 0.1], xyz := some [0.8, 0, 0.12],
             rpy := some [0, 0, 0] }]⟩ = .ok pts ∧ pts.length = 10 := by
  obtain ⟨ps, hp⟩ := positions_exist (n := 10) (pd := ⟨some "LINE",
    some ⟨some ![0.8, -0.2, 0.2], some [0, 0, 0]⟩, some ![0.8, 0.2, 0.2], some 10, none, none, none,
    some "orientation_free", none, none⟩) rfl (.inl ⟨_, _, _, rfl, rfl, rfl, rfl⟩)
  obtain ⟨pts, h1, h2, -⟩ := (C56_path (d := ⟨_, _⟩) rfl hp).1 rfl
  exact ⟨pts, h1, h2⟩

end

end Verif.Props
