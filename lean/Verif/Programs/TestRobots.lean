import Verif.Screw.Poe

/-!
# The robots of the tests

/repo/tests/testScrewTheory.cpp:62-275: the arms and legs that the tests of the screw theory library describe.
`Poe.appendExp` takes the frame that `append` has as a default argument.
-/

namespace KD.TestRobots

open Real Mat3

/-- `append(exp)`, for the exponential of a rotation. -/
noncomputable def turn (poe : Poe) (axis origin : Vec3) : Poe := poe.appendExp (.make .rotation axis origin) 1

/-- `append(exp)`, for the exponential of a translation: the origin is that of the constructor,
/repo/libraries/ScrewTheoryLib/MatrixExponential.hpp:34. -/
noncomputable def slide (poe : Poe) (axis : Vec3) : Poe := poe.appendExp (.make .translation axis 0) 1

/-- `makeTeoRightArmKinematicsFromPoE`, /repo/tests/testScrewTheory.cpp:62-75. -/
noncomputable def teoRightArm : Poe :=
  let poe := Poe.empty ⟨1, ⟨-0.63401, 0, 0⟩⟩
  let poe := turn poe ⟨0, 0, 1⟩ 0
  let poe := turn poe ⟨0, 1, 0⟩ 0
  let poe := turn poe ⟨1, 0, 0⟩ 0
  let poe := turn poe ⟨0, 0, 1⟩ ⟨-0.32901, 0, 0⟩
  let poe := turn poe ⟨1, 0, 0⟩ ⟨-0.32901, 0, 0⟩
  turn poe ⟨0, 0, 1⟩ ⟨-0.54401, 0, 0⟩

/-- `makeTeoRightLegKinematicsFromPoE`, /repo/tests/testScrewTheory.cpp:92-105. -/
noncomputable def teoRightLeg : Poe :=
  let poe := Poe.empty ⟨rotY (-π / 2) * rotX (π / 2), ⟨0.0175, 0, -0.753005⟩⟩
  let poe := turn poe ⟨0, 0, 1⟩ 0
  let poe := turn poe ⟨0, -1, 0⟩ 0
  let poe := turn poe ⟨1, 0, 0⟩ 0
  let poe := turn poe ⟨1, 0, 0⟩ ⟨0, 0, -0.33⟩
  let poe := turn poe ⟨1, 0, 0⟩ ⟨0.0175, 0, -0.63⟩
  turn poe ⟨0, -1, 0⟩ ⟨0.0175, 0, -0.63⟩

/-- `makeAbbIrb120KinematicsFromPoE`, /repo/tests/testScrewTheory.cpp:126-139. -/
noncomputable def abbIrb120 : Poe :=
  let poe := Poe.empty ⟨rotX (π / 2) * rotZ (π / 2), ⟨0.302, 0.47, 0⟩⟩
  let poe := turn poe ⟨0, 1, 0⟩ 0
  let poe := turn poe ⟨0, 0, 1⟩ ⟨0, 0.29, 0⟩
  let poe := turn poe ⟨0, 0, 1⟩ ⟨0, 0.56, 0⟩
  let poe := turn poe ⟨1, 0, 0⟩ ⟨0.302, 0.63, 0⟩
  let poe := turn poe ⟨0, 0, 1⟩ ⟨0.302, 0.63, 0⟩
  turn poe ⟨0, -1, 0⟩ ⟨0.302, 0.63, 0⟩

/-- `makePumaKinematicsFromPoE`, /repo/tests/testScrewTheory.cpp:160-173. -/
noncomputable def puma : Poe :=
  let poe := Poe.empty ⟨1, ⟨0, 5, 1⟩⟩
  let poe := turn poe ⟨0, 1, 0⟩ 0
  let poe := turn poe ⟨1, 0, 0⟩ ⟨0, 2, 0⟩
  let poe := turn poe ⟨1, 0, 0⟩ ⟨0, 3, 0⟩
  let poe := turn poe ⟨0, 1, 0⟩ ⟨0, 3, 0⟩
  let poe := turn poe ⟨1, 0, 0⟩ ⟨0, 5, 0⟩
  turn poe ⟨0, 0, 1⟩ ⟨0, 5, 0⟩

/-- `makeStanfordKinematicsFromPoE`, /repo/tests/testScrewTheory.cpp:196-209. -/
noncomputable def stanford : Poe :=
  let poe := Poe.empty ⟨1, ⟨0, 5, 1⟩⟩
  let poe := turn poe ⟨0, 1, 0⟩ 0
  let poe := turn poe ⟨1, 0, 0⟩ ⟨0, 2, 0⟩
  let poe := slide poe ⟨0, 1, 0⟩
  let poe := turn poe ⟨0, 1, 0⟩ ⟨0, 2, 0⟩
  let poe := turn poe ⟨1, 0, 0⟩ ⟨0, 5, 0⟩
  turn poe ⟨0, 0, 1⟩ ⟨0, 5, 0⟩

/-- `makeAbbIrb910scKinematicsFromPoE`, /repo/tests/testScrewTheory.cpp:228-239. -/
noncomputable def abbIrb910sc : Poe :=
  let poe := Poe.empty ⟨rotX (π / 2), ⟨0.65, 0.125, 0⟩⟩
  let poe := turn poe ⟨0, 1, 0⟩ 0
  let poe := turn poe ⟨0, 1, 0⟩ ⟨0.4, 0, 0⟩
  let poe := slide poe ⟨0, -1, 0⟩
  turn poe ⟨0, -1, 0⟩ ⟨0.65, 0, 0⟩

/-- `makeAbbIrb6620lxFromPoE`, /repo/tests/testScrewTheory.cpp:262-275. -/
noncomputable def abbIrb6620lx : Poe :=
  let poe := Poe.empty ⟨rotY (π / 2), ⟨3, 1.613, 0⟩⟩
  let poe := slide poe ⟨0, 0, 1⟩
  let poe := turn poe ⟨0, 0, 1⟩ ⟨1.468, 2.5, 0⟩
  let poe := turn poe ⟨0, 0, 1⟩ ⟨2.443, 2.5, 0⟩
  let poe := turn poe ⟨0, -1, 0⟩ ⟨2.643, 1.613, 0⟩
  let poe := turn poe ⟨0, 0, 1⟩ ⟨2.643, 1.613, 0⟩
  turn poe ⟨1, 0, 0⟩ ⟨2.643, 1.613, 0⟩

end KD.TestRobots
