import Verif.Tests.Prelude

/-
Tests of the repository run on the model (see Tests/Prelude.lean): /repo/tests/constraints/test_binary.py, /repo/tests/constraints/test_factory.py.
-/

set_option linter.unusedVariables false

namespace Verif.Tests

/-- tests/constraints/test_binary.py, line 26. -/
def test_BinaryConstraintsManager_init : Bool :=
  let m1 := (Manager.init ([] : List String))
  let m2 := (Manager.init (["first", "second", "third"] : List String))
  let m3 := (Manager.init (["first", "second", "same", "same"] : List String))
  returnsEmpty (Except.ok m1.managed : Except PyErr _) &&
    returns (Except.ok m2.managed : Except PyErr _) ["first", "second", "third"] &&
    returns (Except.ok m3.managed : Except PyErr _) ["first", "second", "same"]

example : test_BinaryConstraintsManager_init = true := by decide +kernel

/-- tests/constraints/test_binary.py, line 53. -/
def test_BinaryConstraintsManager_add_data_ID_with_incorrect_data_ID : Bool :=
  let m1 := (Manager.init (["first", "second", "third"] : List String))
  let r2 := Manager.addDataID "second" m1
  let m3 := resState r2
  raisesValue (resVal r2) "data_ID" &&
    returns (Except.ok m3.managed : Except PyErr _) ["first", "second", "third"]

example : test_BinaryConstraintsManager_add_data_ID_with_incorrect_data_ID = true := by decide +kernel

/-- tests/constraints/test_binary.py, line 76. -/
def test_BinaryConstraintsManager_add_data_ID_with_correct_parameters : Bool :=
  let m1 := (Manager.init (["first", "second", "third"] : List String))
  let r2 := Manager.addDataID "fourth" m1
  let m3 := resState r2
  returns (resVal r2) true &&
    returns (Except.ok m3.managed : Except PyErr _) ["first", "second", "third", "fourth"] &&
    returns (m3.getInferred "first" "fourth") none &&
    returns (m3.getInferred "second" "fourth") none &&
    returns (m3.getInferred "third" "fourth") none &&
    returns (m3.getInferred "fourth" "fourth") (some .mustLink)

example : test_BinaryConstraintsManager_add_data_ID_with_correct_parameters = true := by decide +kernel

/-- tests/constraints/test_binary.py, line 129. -/
def test_BinaryConstraintsManager_delete_data_ID_with_incorrect_data_ID : Bool :=
  let m1 := (Manager.init (["first", "second", "third"] : List String))
  let r2 := Manager.deleteDataID "unknown" m1
  let m3 := resState r2
  raisesValue (resVal r2) "data_ID" &&
    returns (Except.ok m3.managed : Except PyErr _) ["first", "second", "third"]

example : test_BinaryConstraintsManager_delete_data_ID_with_incorrect_data_ID = true := by decide +kernel

/-- tests/constraints/test_binary.py, line 152. -/
def test_BinaryConstraintsManager_delete_data_ID_with_correct_parameters : Bool :=
  let m1 := (Manager.init (["first", "second", "third"] : List String))
  let r2 := Manager.deleteDataID "second" m1
  let m3 := resState r2
  returns (resVal r2) true &&
    returns (Except.ok m3.managed : Except PyErr _) ["first", "third"]

example : test_BinaryConstraintsManager_delete_data_ID_with_correct_parameters = true := by decide +kernel

/-- tests/constraints/test_binary.py, line 184. -/
def test_BinaryConstraintsManager_add_constraint_with_incorrect_data_ID : Bool :=
  let m1 := (Manager.init (["first", "second", "third"] : List String))
  let r2 := Manager.addConstraint "unknown" "second" "MUST_LINK" 1 m1
  let m3 := resState r2
  let r4 := Manager.addConstraint "first" "unknown" "CANNOT_LINK" 1 m3
  let m5 := resState r4
  raisesValue (resVal r2) "data_ID1" &&
    raisesValue (resVal r4) "data_ID2"

example : test_BinaryConstraintsManager_add_constraint_with_incorrect_data_ID = true := by decide +kernel

/-- tests/constraints/test_binary.py, line 214. -/
def test_BinaryConstraintsManager_add_constraint_with_incorrect_constraint_type : Bool :=
  let m1 := (Manager.init (["first", "second", "third"] : List String))
  let r2 := Manager.addConstraint "first" "second" "UNKNOWN_LINK" 1 m1
  let m3 := resState r2
  raisesType (resVal r2)

example : test_BinaryConstraintsManager_add_constraint_with_incorrect_constraint_type = true := by decide +kernel

/-- tests/constraints/test_binary.py, line 236. -/
def test_BinaryConstraintsManager_add_constraint_with_already_linked_data_IDs : Bool :=
  let m1 := (Manager.init (["first", "second", "third"] : List String))
  let r2 := Manager.addConstraint "first" "second" "MUST_LINK" 1 m1
  let m3 := resState r2
  let r4 := Manager.addConstraint "first" "third" "CANNOT_LINK" 1 m3
  let m5 := resState r4
  let r6 := Manager.addConstraint "first" "second" "MUST_LINK" 1 m5
  let m7 := resState r6
  let r8 := Manager.addConstraint "first" "second" "CANNOT_LINK" 1 m7
  let m9 := resState r8
  returnsSome (resVal r2) &&
    returnsSome (resVal r4) &&
    returns (resVal r6) true &&
    raisesType (resVal r8)

example : test_BinaryConstraintsManager_add_constraint_with_already_linked_data_IDs = true := by decide +kernel

/-- tests/constraints/test_binary.py, line 278. -/
def test_BinaryConstraintsManager_add_constraint_with_not_already_linked_data_IDs : Bool :=
  let m1 := (Manager.init (["first", "second", "third"] : List String))
  let r2 := Manager.addConstraint "first" "second" "MUST_LINK" 1 m1
  let m3 := resState r2
  let r4 := Manager.addConstraint "first" "third" "CANNOT_LINK" 1 m3
  let m5 := resState r4
  let r6 := Manager.addConstraint "second" "third" "MUST_LINK" 1 m5
  let m7 := resState r6
  let r8 := Manager.addConstraint "second" "third" "CANNOT_LINK" 1 m7
  let m9 := resState r8
  returns (resVal r2) true &&
    returns (m3.getAdded "first" "second") (some (.mustLink, 1)) &&
    returns (resVal r4) true &&
    returns (m5.getAdded "first" "third") (some (.cannotLink, 1)) &&
    raisesType (resVal r6) &&
    returns (resVal r8) true &&
    returns (m9.getAdded "second" "third") (some (.cannotLink, 1))

example : test_BinaryConstraintsManager_add_constraint_with_not_already_linked_data_IDs = true := by decide +kernel

/-- tests/constraints/test_binary.py, line 342. -/
def test_BinaryConstraintsManager_delete_constraint_with_incorrect_data_IDs : Bool :=
  let m1 := (Manager.init (["first", "second", "third"] : List String))
  let r2 := Manager.deleteConstraint "unknown" "second" m1
  let m3 := resState r2
  let r4 := Manager.deleteConstraint "first" "unknown" m3
  let m5 := resState r4
  raisesValue (resVal r2) "data_ID1" &&
    raisesValue (resVal r4) "data_ID2"

example : test_BinaryConstraintsManager_delete_constraint_with_incorrect_data_IDs = true := by decide +kernel

/-- tests/constraints/test_binary.py, line 370. -/
def test_BinaryConstraintsManager_delete_constraint_with_correct_parameters : Bool :=
  let m1 := (Manager.init (["first", "second", "third"] : List String))
  let r2 := Manager.addConstraint "first" "second" "MUST_LINK" 1 m1
  let m3 := resState r2
  let r4 := Manager.addConstraint "first" "third" "CANNOT_LINK" 1 m3
  let m5 := resState r4
  let r6 := Manager.deleteConstraint "second" "third" m5
  let m7 := resState r6
  let r8 := Manager.deleteConstraint "first" "third" m7
  let m9 := resState r8
  returnsSome (resVal r2) &&
    returnsSome (resVal r4) &&
    returns (resVal r6) true &&
    returns (m7.getAdded "second" "third") none &&
    returns (m7.getInferred "second" "third") (some .cannotLink) &&
    returns (resVal r8) true &&
    returns (m9.getAdded "first" "third") none &&
    returns (m9.getAdded "second" "third") none

example : test_BinaryConstraintsManager_delete_constraint_with_correct_parameters = true := by decide +kernel

/-- tests/constraints/test_binary.py, line 440. -/
def test_BinaryConstraintsManager_get_added_constraint_with_incorrect_data_ID : Bool :=
  let m1 := (Manager.init (["first", "second", "third"] : List String))
  let r2 := Manager.addConstraint "first" "second" "MUST_LINK" 1 m1
  let m3 := resState r2
  let r4 := Manager.addConstraint "first" "third" "CANNOT_LINK" 1 m3
  let m5 := resState r4
  returnsSome (resVal r2) &&
    returnsSome (resVal r4) &&
    raisesValue (m5.getAdded "unknown" "second") "data_ID1" &&
    raisesValue (m5.getAdded "first" "unknown") "data_ID2"

example : test_BinaryConstraintsManager_get_added_constraint_with_incorrect_data_ID = true := by decide +kernel

/-- tests/constraints/test_binary.py, line 478. -/
def test_BinaryConstraintsManager_get_added_constraint_with_correct_parameters : Bool :=
  let m1 := (Manager.init (["first", "second", "third"] : List String))
  let r2 := Manager.addConstraint "first" "second" "MUST_LINK" 1 m1
  let m3 := resState r2
  let r4 := Manager.addConstraint "first" "third" "CANNOT_LINK" 1 m3
  let m5 := resState r4
  returnsSome (resVal r2) &&
    returnsSome (resVal r4) &&
    returns (m5.getAdded "first" "second") (some (.mustLink, 1)) &&
    returns (m5.getAdded "first" "third") (some (.cannotLink, 1))

example : test_BinaryConstraintsManager_get_added_constraint_with_correct_parameters = true := by decide +kernel

/-- tests/constraints/test_binary.py, line 514. -/
def test_BinaryConstraintsManager_get_inferred_constraint_with_incorrect_data_ID : Bool :=
  let m1 := (Manager.init (["first", "second", "third"] : List String))
  raisesValue (m1.getInferred "unknown" "second") "data_ID1" &&
    raisesValue (m1.getInferred "first" "unknown") "data_ID2"

example : test_BinaryConstraintsManager_get_inferred_constraint_with_incorrect_data_ID = true := by decide +kernel

/-- tests/constraints/test_binary.py, line 542. -/
def test_BinaryConstraintsManager_get_inferred_constraint_with_correct_parameter : Bool :=
  let m1 := (Manager.init (["first", "second", "third"] : List String))
  let r2 := Manager.addConstraint "first" "second" "MUST_LINK" 1 m1
  let m3 := resState r2
  returnsSome (resVal r2) &&
    returns (m3.getInferred "first" "second") (some .mustLink) &&
    returns (m3.getInferred "first" "third") none

example : test_BinaryConstraintsManager_get_inferred_constraint_with_correct_parameter = true := by decide +kernel

/-- tests/constraints/test_binary.py, line 581. -/
def test_BinaryConstraintsManager_get_connected_components : Bool :=
  let m1 := (Manager.init (["first", "second", "third", "fourth"] : List String))
  let r2 := Manager.addConstraint "first" "second" "MUST_LINK" 1 m1
  let m3 := resState r2
  let r4 := Manager.addConstraint "second" "third" "MUST_LINK" 1 m3
  let m5 := resState r4
  let r6 := Manager.addConstraint "second" "fourth" "CANNOT_LINK" 1 m5
  let m7 := resState r6
  let p8 := (Except.ok m7.components : Except PyErr _)
  returnsSome (resVal r2) &&
    returnsSome (resVal r4) &&
    returnsSome (resVal r6) &&
    returns p8 [["first", "second", "third"], ["fourth"]]

example : test_BinaryConstraintsManager_get_connected_components = true := by decide +kernel

/-- tests/constraints/test_binary.py, line 618. -/
def test_BinaryConstraintsManager_check_completude_of_constraints : Bool :=
  let m1 := (Manager.init (["first", "second", "third", "fourth"] : List String))
  let r2 := Manager.addConstraint "first" "second" "MUST_LINK" 1 m1
  let m3 := resState r2
  let r4 := Manager.addConstraint "second" "third" "MUST_LINK" 1 m3
  let m5 := resState r4
  let r6 := Manager.addConstraint "second" "fourth" "CANNOT_LINK" 1 m5
  let m7 := resState r6
  returns (Except.ok m1.complete : Except PyErr _) false &&
    returnsSome (resVal r2) &&
    returns (Except.ok m3.complete : Except PyErr _) false &&
    returnsSome (resVal r4) &&
    returns (Except.ok m5.complete : Except PyErr _) false &&
    returnsSome (resVal r6) &&
    returns (Except.ok m7.complete : Except PyErr _) true

example : test_BinaryConstraintsManager_check_completude_of_constraints = true := by decide +kernel

/-- tests/constraints/test_binary.py, line 657. -/
def test_BinaryConstraintsManager_get_min_and_max_number_of_clusters : Bool :=
  let m1 := (Manager.init (["first", "second", "third", "fourth", "fifth", "sixth"] : List String))
  let p2 := (m1.minMax listOrders)
  let r3 := Manager.addConstraint "first" "second" "MUST_LINK" 1 m1
  let m4 := resState r3
  let p5 := (m4.minMax listOrders)
  let r6 := Manager.addConstraint "second" "third" "CANNOT_LINK" 1 m4
  let m7 := resState r6
  let p8 := (m7.minMax listOrders)
  let r9 := Manager.addConstraint "second" "fourth" "CANNOT_LINK" 1 m7
  let m10 := resState r9
  let p11 := (m10.minMax listOrders)
  let r12 := Manager.addConstraint "third" "fourth" "CANNOT_LINK" 1 m10
  let m13 := resState r12
  let p14 := (m13.minMax listOrders)
  let r15 := Manager.addConstraint "fourth" "fifth" "MUST_LINK" 1 m13
  let m16 := resState r15
  let p17 := (m16.minMax listOrders)
  let r18 := Manager.addConstraint "fourth" "sixth" "MUST_LINK" 1 m16
  let m19 := resState r18
  let p20 := (m19.minMax listOrders)
  returns (p2.map Prod.fst) 2 &&
    returns (p2.map Prod.snd) 6 &&
    returnsSome (resVal r3) &&
    returns (p5.map Prod.fst) 2 &&
    returns (p5.map Prod.snd) 5 &&
    returnsSome (resVal r6) &&
    returns (p8.map Prod.fst) 2 &&
    returns (p8.map Prod.snd) 5 &&
    returnsSome (resVal r9) &&
    returns (p11.map Prod.fst) 2 &&
    returns (p11.map Prod.snd) 5 &&
    returnsSome (resVal r12) &&
    returns (p14.map Prod.fst) 3 &&
    returns (p14.map Prod.snd) 5 &&
    returnsSome (resVal r15) &&
    returns (p17.map Prod.fst) 3 &&
    returns (p17.map Prod.snd) 4 &&
    returnsSome (resVal r18) &&
    returns (p20.map Prod.fst) 3 &&
    returns (p20.map Prod.snd) 3 &&
    returns (Except.ok m19.complete : Except PyErr _) true

example : test_BinaryConstraintsManager_get_min_and_max_number_of_clusters = true := by decide +kernel

/-- tests/constraints/test_binary.py, line 735. -/
def test_BinaryConstraintsManager_check_symetry_after_constraint_addition : Bool :=
  let m1 := (Manager.init (["first", "second", "third"] : List String))
  let r2 := Manager.addConstraint "first" "second" "MUST_LINK" 1 m1
  let m3 := resState r2
  let r4 := Manager.addConstraint "first" "third" "CANNOT_LINK" 1 m3
  let m5 := resState r4
  returnsSome (resVal r2) &&
    returnsSome (resVal r4) &&
    returns (m5.getAdded "first" "second") (some (.mustLink, 1)) &&
    returns (m5.getAdded "second" "first") (some (.mustLink, 1)) &&
    returns (m5.getInferred "first" "second") (some .mustLink) &&
    returns (m5.getInferred "second" "first") (some .mustLink) &&
    returns (m5.getAdded "first" "third") (some (.cannotLink, 1)) &&
    returns (m5.getAdded "third" "first") (some (.cannotLink, 1)) &&
    returns (m5.getInferred "first" "third") (some .cannotLink) &&
    returns (m5.getInferred "third" "first") (some .cannotLink)

example : test_BinaryConstraintsManager_check_symetry_after_constraint_addition = true := by decide +kernel

/-- tests/constraints/test_binary.py, line 810. -/
def test_BinaryConstraintsManager_check_transitivity_after_constraint_addition : Bool :=
  let m1 := (Manager.init (["first", "second", "third", "fourth"] : List String))
  let r2 := Manager.addConstraint "first" "second" "MUST_LINK" 1 m1
  let m3 := resState r2
  let r4 := Manager.addConstraint "second" "third" "MUST_LINK" 1 m3
  let m5 := resState r4
  let r6 := Manager.addConstraint "second" "fourth" "CANNOT_LINK" 1 m5
  let m7 := resState r6
  returnsSome (resVal r2) &&
    returnsSome (resVal r4) &&
    returnsSome (resVal r6) &&
    returns (m7.getAdded "first" "third") none &&
    returns (m7.getAdded "third" "first") none &&
    returns (m7.getInferred "first" "third") (some .mustLink) &&
    returns (m7.getInferred "third" "first") (some .mustLink) &&
    returns (m7.getAdded "first" "fourth") none &&
    returns (m7.getAdded "fourth" "first") none &&
    returns (m7.getInferred "first" "fourth") (some .cannotLink) &&
    returns (m7.getInferred "fourth" "first") (some .cannotLink)

example : test_BinaryConstraintsManager_check_transitivity_after_constraint_addition = true := by decide +kernel

/-- tests/constraints/test_binary.py, line 903. -/
def test_BinaryConstraintsManager_check_symetry_after_constraint_deletion : Bool :=
  let m1 := (Manager.init (["first", "second", "third"] : List String))
  let r2 := Manager.addConstraint "first" "second" "MUST_LINK" 1 m1
  let m3 := resState r2
  let r4 := Manager.deleteConstraint "second" "first" m3
  let m5 := resState r4
  returnsSome (resVal r2) &&
    returnsSome (resVal r4) &&
    returns (m5.getAdded "first" "second") none &&
    returns (m5.getAdded "second" "first") none &&
    returns (m5.getInferred "first" "second") none &&
    returns (m5.getInferred "second" "first") none

example : test_BinaryConstraintsManager_check_symetry_after_constraint_deletion = true := by decide +kernel

/-- tests/constraints/test_binary.py, line 959. -/
def test_BinaryConstraintsManager_check_transitivity_after_constraint_deletion : Bool :=
  let m1 := (Manager.init (["first", "second", "third", "fourth"] : List String))
  let r2 := Manager.addConstraint "first" "second" "MUST_LINK" 1 m1
  let m3 := resState r2
  let r4 := Manager.addConstraint "second" "third" "MUST_LINK" 1 m3
  let m5 := resState r4
  let r6 := Manager.addConstraint "second" "fourth" "CANNOT_LINK" 1 m5
  let m7 := resState r6
  let r8 := Manager.deleteConstraint "second" "first" m7
  let m9 := resState r8
  returnsSome (resVal r2) &&
    returnsSome (resVal r4) &&
    returns (m5.getInferred "first" "third") (some .mustLink) &&
    returns (m5.getInferred "third" "first") (some .mustLink) &&
    returnsSome (resVal r6) &&
    returns (m7.getInferred "first" "fourth") (some .cannotLink) &&
    returns (m7.getInferred "fourth" "first") (some .cannotLink) &&
    returnsSome (resVal r8) &&
    returns (m9.getInferred "first" "third") none &&
    returns (m9.getInferred "third" "first") none &&
    returns (m9.getInferred "first" "fourth") none &&
    returns (m9.getInferred "fourth" "first") none

example : test_BinaryConstraintsManager_check_transitivity_after_constraint_deletion = true := by decide +kernel

/-- tests/constraints/test_binary.py, line 1058. -/
def test_BinaryConstraintsManager_check_transitivity_after_data_ID_deletion : Bool :=
  let m1 := (Manager.init (["first", "second", "third", "fourth"] : List String))
  let r2 := Manager.addConstraint "first" "second" "MUST_LINK" 1 m1
  let m3 := resState r2
  let r4 := Manager.addConstraint "second" "third" "MUST_LINK" 1 m3
  let m5 := resState r4
  let r6 := Manager.addConstraint "second" "fourth" "CANNOT_LINK" 1 m5
  let m7 := resState r6
  let r8 := Manager.deleteDataID "second" m7
  let m9 := resState r8
  returnsSome (resVal r2) &&
    returnsSome (resVal r4) &&
    returns (m5.getInferred "first" "third") (some .mustLink) &&
    returns (m5.getInferred "third" "first") (some .mustLink) &&
    returnsSome (resVal r6) &&
    returns (m7.getInferred "first" "fourth") (some .cannotLink) &&
    returns (m7.getInferred "fourth" "first") (some .cannotLink) &&
    returnsSome (resVal r8) &&
    returns (m9.getInferred "first" "third") none &&
    returns (m9.getInferred "third" "first") none &&
    returns (m9.getInferred "first" "fourth") none &&
    returns (m9.getInferred "fourth" "first") none

example : test_BinaryConstraintsManager_check_transitivity_after_data_ID_deletion = true := by decide +kernel

/-- tests/constraints/test_binary.py, line 1155. -/
def test_BinaryConstraintsManager_get_list_of_involved_data_IDs_in_a_constraint_conflict_with_incorrect_data_ID : Bool :=
  let m1 := (Manager.init (["first", "second", "third"] : List String))
  raisesValue (m1.conflictIDs "unknown" "second" "MUST_LINK") "data_ID1" &&
    raisesValue (m1.conflictIDs "first" "unknown" "CANNOT_LINK") "data_ID2"

example : test_BinaryConstraintsManager_get_list_of_involved_data_IDs_in_a_constraint_conflict_with_incorrect_data_ID = true := by decide +kernel

/-- tests/constraints/test_binary.py, line 1185. -/
def test_BinaryConstraintsManager_get_list_of_involved_data_IDs_in_a_constraint_conflict_with_incorrect_constraint_type : Bool :=
  let m1 := (Manager.init (["first", "second", "third"] : List String))
  raisesValue (m1.conflictIDs "first" "second" "UNKNOWN_LINK") "constraint_type"

example : test_BinaryConstraintsManager_get_list_of_involved_data_IDs_in_a_constraint_conflict_with_incorrect_constraint_type = true := by decide +kernel

/-- tests/constraints/test_binary.py, line 1207. -/
def test_BinaryConstraintsManager_get_list_of_involved_data_IDs_in_a_constraint_conflict : Bool :=
  let m1 := (Manager.init (["first", "second", "third", "fourth", "fifth"] : List String))
  let r2 := Manager.addConstraint "first" "second" "MUST_LINK" 1 m1
  let m3 := resState r2
  let r4 := Manager.addConstraint "second" "third" "MUST_LINK" 1 m3
  let m5 := resState r4
  let r6 := Manager.addConstraint "third" "fourth" "CANNOT_LINK" 1 m5
  let m7 := resState r6
  let r8 := Manager.addConstraint "fourth" "fifth" "CANNOT_LINK" 1 m7
  let m9 := resState r8
  returnsSome (resVal r2) &&
    returnsSome (resVal r4) &&
    returnsSome (resVal r6) &&
    returnsSome (resVal r8) &&
    returns (m9.conflictIDs "first" "fourth" "MUST_LINK") (some ["first", "second", "third", "fourth"]) &&
    returns (m9.conflictIDs "first" "third" "CANNOT_LINK") (some ["first", "second", "third"]) &&
    returns (m9.conflictIDs "first" "third" "MUST_LINK") none &&
    returns (m9.conflictIDs "fourth" "fifth" "CANNOT_LINK") none

example : test_BinaryConstraintsManager_get_list_of_involved_data_IDs_in_a_constraint_conflict = true := by decide +kernel

/-- tests/constraints/test_binary.py, line 1275. -/
def test_BinaryConstraintsManager_serialization : Bool :=
  let m1 := (Manager.init (["first", "second", "third"] : List String))
  let r2 := Manager.addConstraint "first" "second" "MUST_LINK" 1 m1
  let m3 := resState r2
  let r4 := Manager.addConstraint "second" "third" "CANNOT_LINK" 1 m3
  let m5 := resState r4
  let p6 := (loadManager (Manager.save m5))
  let m7 := (p6.toOption.getD (Manager.init []))
  returnsSome (resVal r2) &&
    returnsSome (resVal r4) &&
    returnsSome (Except.ok () : Except PyErr Unit) &&
    returnsSome p6 &&
    sameReturn (Except.ok m5.managed : Except PyErr _) (Except.ok m7.managed : Except PyErr _) &&
    sameReturn (m5.getAdded "first" "second") (m7.getAdded "first" "second") &&
    sameReturn (m5.getAdded "second" "third") (m7.getAdded "second" "third") &&
    sameReturn (m5.getInferred "first" "third") (m7.getInferred "first" "third")

example : test_BinaryConstraintsManager_serialization = true := by decide +kernel

/-- tests/constraints/test_factory.py, line 24. -/
def test_managing_factory_for_not_implemented_constraints_manager : Bool :=
  raisesValue (managingFactory ["first", "second", "third"] "unknown" ([] : Kwargs)) "manager"

example : test_managing_factory_for_not_implemented_constraints_manager = true := by decide +kernel

/-- tests/constraints/test_factory.py, line 37. -/
def test_managing_factory_for_binary_constraints_manager : Bool :=
  returnsSome (managingFactory ["first", "second", "third"] "binary" ([("algorithm", (.str "binary"))] : Kwargs))

example : test_managing_factory_for_binary_constraints_manager = true := by decide +kernel

end Verif.Tests
