import Verif.Model.Robots

/-!
# Model of the robots that the documentation builds

docs/source/robots_and_links.ipynb, by the lines of the file: its own PlanarArm, the pen and the
objects it is checked against.  The page is the only place besides the tests with recorded answers.
-/

namespace Verif.Kin

open Matrix Verif.Geometry Verif.Util

noncomputable section

/-- robots_and_links.ipynb:156-167: the class PlanarArm of the page.  It is not the class of the same
name in acrobotics/resources/robots.py:12-24 (`planarArm`): the boxes have other sizes and places. -/
def docPlanarArm (a1 a2 a3 : ℝ) : Robot Shape := Robot.new
  [⟨⟨a1, 0, 0, 0⟩, .r, ⟨[⟨a1, 0.1, 0.1⟩], [translation (-a1 / 2) 0 0]⟩⟩,
   ⟨⟨a2, 0, 0, 0⟩, .r, ⟨[⟨a2, 0.1, 0.1⟩], [translation (-a2 / 2) 0 0]⟩⟩,
   ⟨⟨a3, 0, 0, 0⟩, .r, ⟨[⟨a3, 0.1, 0.1⟩], [translation (-a3 / 2) 0 0]⟩⟩]

/-- robots_and_links.ipynb:219 -/
def goodBox : Collection Shape := ⟨[⟨0.5, 0.5, 0.5⟩], [translation 1.5 1.5 0]⟩

/-- robots_and_links.ipynb:220 -/
def badBox : Collection Shape := ⟨[⟨0.5, 0.5, 0.5⟩], [translation 1.5 0 0]⟩

/-- robots_and_links.ipynb:453-455 -/
def pen : Tool Shape := ⟨⟨[⟨0.3, 0.05, 0.05⟩], [translation 0.15 0 0]⟩, translation 0.3 0 0⟩

/-- robots_and_links.ipynb:459-460 -/
def blackboard : Collection Shape := ⟨[⟨0.1, 1.0, 0.5⟩], [translation 2 0 0.25]⟩

/-- robots_and_links.ipynb:457: `robot.tool = pen` -/
def penArm (a1 a2 a3 : ℝ) : Robot Shape := { docPlanarArm a1 a2 a3 with tool := some pen }

end
end Verif.Kin
