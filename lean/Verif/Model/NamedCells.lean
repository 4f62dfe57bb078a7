import Verif.Model.UnitCell
import Verif.Model.SystemForm

/-!
# The named unit cells and random systems

Model of the class methods of `UnitCell` that build known structures, and of `make_random_system`, in
`freud/data.py`, over the reals. Exceptions are `none`.
-/

namespace Freud

/-- `np.deg2rad`. -/
noncomputable def deg2rad (x : ℝ) : ℝ := x * (Real.pi / 180)

namespace UnitCell

/-- `UnitCell.__init__`, `freud/data.py:38-42`, for anything that `Box.from_box` reads. -/
noncomputable def ofLike (box : BoxLike) (basis : List (Vec3 ℝ)) : Option (UnitCell ℝ) :=
  (fromBoxLike box none).map fun b => ⟨b, basis⟩

/-- `UnitCell.hcp`, `freud/data.py:193-205`. -/
noncomputable def hcp : Option (UnitCell ℝ) :=
  (fromLengthsAngles ⟨1, 1, Real.sqrt (8 / 3), deg2rad 90, deg2rad 90, deg2rad 120⟩ none).bind
    fun box => ofLike (.box box) [⟨1 / 3, 2 / 3, 1 / 4⟩, ⟨2 / 3, 1 / 3, 3 / 4⟩]

/-- `UnitCell.fcc`, `freud/data.py:208-215`. -/
noncomputable def fcc : Option (UnitCell ℝ) :=
  ofLike (.list [1, 1, 1]) [⟨1 / 2, 1 / 2, 0⟩, ⟨1 / 2, 0, 1 / 2⟩, ⟨0, 1 / 2, 1 / 2⟩, ⟨0, 0, 0⟩]

/-- `UnitCell.bcc`, `freud/data.py:218-225`. -/
noncomputable def bcc : Option (UnitCell ℝ) :=
  ofLike (.list [1, 1, 1]) [⟨1 / 2, 1 / 2, 1 / 2⟩, ⟨0, 0, 0⟩]

/-- `UnitCell.sc`, `freud/data.py:228-235`. -/
noncomputable def sc : Option (UnitCell ℝ) := ofLike (.list [1, 1, 1]) [⟨0, 0, 0⟩]

/-- `UnitCell.square`, `freud/data.py:238-245`. -/
noncomputable def square : Option (UnitCell ℝ) := ofLike (.list [1, 1]) [⟨0, 0, 0⟩]

/-- `UnitCell.rectangular`, `freud/data.py:248-266`. -/
noncomputable def rectangular (aspect : ℝ) (centered : Bool) : Option (UnitCell ℝ) :=
  ofLike (.list [1, aspect]) (⟨0, 0, 0⟩ :: if ¬ centered then [] else [⟨1 / 2, 1 / 2, 0⟩])

/-- `UnitCell.oblique`, `freud/data.py:269-294`. -/
noncomputable def oblique (aspect theta : ℝ) : Option (UnitCell ℝ) :=
  (fromLengthsAngles ⟨1, aspect, 0, Real.pi / 2, Real.pi / 2, deg2rad theta⟩ none).bind
    fun box => ofLike (.box box) [⟨0, 0, 0⟩]

/-- `UnitCell.hex`, `freud/data.py:297-304`. -/
noncomputable def hex : Option (UnitCell ℝ) :=
  ofLike (.list [1, Real.sqrt 3]) [⟨0, 0, 0⟩, ⟨1 / 2, 1 / 2, 0⟩]

/-- `UnitCell.graphene`, `freud/data.py:307-321`. -/
noncomputable def graphene : Option (UnitCell ℝ) :=
  ofLike (.list [1, Real.sqrt 3]) [⟨0, 0, 0⟩, ⟨0, 1 / 3, 0⟩, ⟨1 / 2, 5 / 6, 0⟩, ⟨1 / 2, 1 / 2, 0⟩]

end UnitCell

/-- `make_random_system`, `freud/data.py:350-376`, with `Box.square` and `Box.cube`,
`freud/box.py:885-918`. `samples` are the numbers drawn by `random_sample((num_points, 3))`, all in
`[0, 1)`. -/
noncomputable def makeRandomSystem (boxSize : ℝ) (samples : List (Vec3 ℝ)) (is2D : Bool) :
    Option (Box ℝ × List (Vec3 ℝ)) :=
  (if is2D then pyBox boxSize boxSize 0 0 0 0 true
    else pyBox boxSize boxSize boxSize 0 0 0 false).map fun box =>
      (box, (if is2D then samples.map fun f => ⟨f.x, f.y, 0⟩ else samples).map box.makeAbsolute)

end Freud
