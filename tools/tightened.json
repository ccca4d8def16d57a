{
 "b2-17": {
  "tightened": [
   "C61_setup_is_textbook"
  ],
  "note": "survived: no theorem used the two-dimensional Legendre gradients; C61 now fixes them"
 },
 "b2-18": {
  "tightened": [
   "C21_hexahedron",
   "C63_setup_is_textbook"
  ],
  "note": "survived: no theorem used the three-dimensional Legendre gradients; now fixed"
 },
 "b2-19": {
  "tightened": [
   "C61_setup_is_textbook"
  ],
  "note": "survived: values of the quadrilateral Legendre basis were only used through symmetric statements; C61 fixes them"
 },
 "b2-34": {
  "tightened": [
   "C61_setup_is_textbook",
   "C61_run_is_textbook"
  ],
  "note": "survived: no theorem about the side a normal is computed from; C61 now states that both ranks use the outward normal of the left element"
 },
 "b3-8": {
  "tightened": [
   "C55_faces"
  ],
  "note": "survived: hexahedral face orientations of the geometric basis"
 },
 "b3-9": {
  "tightened": [
   "C61_setup_is_textbook"
  ],
  "note": "survived: face shape of a basis; C61 uses it for the side rules"
 },
 "b3-11": {
  "tightened": [
   "C63_setup_is_textbook"
  ],
  "note": "survived: argument order of the hexahedral basis dispatch"
 },
 "b3-62": {
  "tightened": [
   "C44_header"
  ],
  "note": "survived: rank check in the serialized read"
 },
 "extra": [
  {
   "id": "review-1",
   "definition": "Verif/Model/Mesh.lean: partition",
   "edit": "different enumeration orders of the unordered containers on different ranks",
   "claim": "C01/C04/C06/C07 must hold whatever order each rank's hash tables are enumerated in",
   "failed": [],
   "theorems_failed": [],
   "survived": true,
   "tightened": [
    "C01_rank_elements",
    "C04_face_ranks",
    "C06_neighbours_exact",
    "C07_ghost_lists_agree"
   ],
   "note": "the theorems used one enumeration order for all ranks; they now take one order per rank"
  },
  {
   "id": "review-2",
   "definition": "Verif/Model/Network.lean: Proto.Step",
   "edit": "a schedule that deadlocks from some reached configuration while another schedule finishes from the start",
   "claim": "C09/C60/C61/C63 completion: every execution prefix can be continued to a finished one",
   "failed": [],
   "theorems_failed": [],
   "survived": true,
   "tightened": [
    "C09_terminates",
    "C60_run_completes",
    "C61_run_completes",
    "C63_run_completes"
   ],
   "note": "old statement only gave some finished execution from the start; now a continuation from each reached configuration"
  },
  {
   "id": "review-3",
   "definition": "Verif/Model/Volume.lean: total volume / max volume",
   "edit": "different enumeration orders of the unordered containers on different ranks",
   "claim": "C49/C56 hold whatever order each rank enumerates its hash tables in",
   "failed": [],
   "theorems_failed": [],
   "survived": true,
   "tightened": [
    "C49 and C56 theorems"
   ],
   "note": "old statements used one enumeration order for all ranks"
  }
 ],
 "b4-7": {
  "tightened": [
   "C63_setup_is_textbook"
  ],
  "note": "survived: hexahedral branch not fixed by any theorem at the time; basis values now fixed by C63"
 },
 "b4-10": {
  "tightened": [
   "C63_setup_is_textbook"
  ],
  "note": "survived: hexahedral branch not fixed by any theorem at the time; dimension now fixed by C63"
 },
 "b4-12": {
  "tightened": [
   "C63_setup_is_textbook"
  ],
  "note": "survived: hexahedral branch not fixed by any theorem at the time; number of faces now fixed by C63"
 },
 "b4-15": {
  "tightened": [
   "C63_setup_is_textbook"
  ],
  "note": "survived: hexahedral branch not fixed by any theorem at the time; volume rule now fixed by C63"
 },
 "b4-20": {
  "tightened": [
   "C63_setup_is_textbook"
  ],
  "note": "survived: hexahedral branch not fixed by any theorem at the time; basis gradients now fixed by C63"
 },
 "b4-26": {
  "tightened": [
   "C63_setup_is_textbook"
  ],
  "note": "survived: hexahedral branch not fixed by any theorem at the time; face points now fixed by C63"
 },
 "b4-30": {
  "tightened": [
   "C63_setup_is_textbook"
  ],
  "note": "survived: hexahedral branch not fixed by any theorem at the time; order of face points now fixed by C63"
 },
 "b4-36": {
  "tightened": [
   "C63_setup_is_textbook"
  ],
  "note": "survived: hexahedral branch not fixed by any theorem at the time; face normals now fixed by C63"
 },
 "b4-2": {
  "tightened": [
   "C21_hexahedron",
   "C63_setup_is_textbook"
  ],
  "note": "survived: three-dimensional Legendre gradients; now fixed by C21_hexahedron and C63"
 },
 "b4-44": {
  "tightened": [
   "C64_euler_quad",
   "C64_euler_hex"
  ],
  "note": "survived: which side's state enters the numerical flux; C64 fixes it"
 },
 "b4-46": {
  "tightened": [
   "C64_euler_quad",
   "C64_euler_hex"
  ],
  "note": "survived: time at which the initial condition is evaluated; C64 fixes it"
 },
 "b4-5": {
  "tightened": [
   "C55_faces"
  ],
  "note": "survived: number of face orientations"
 },
 "b4-8": {
  "tightened": [
   "C44_header"
  ],
  "note": "survived: rank check of the serialized reader with a smaller file"
 },
 "b4-45": {
  "note": "equivalent mutant: only changes an unset (junk) value no theorem or execution depends on"
 },
 "b5-3": {
  "tightened": [
   "C67_program_quad",
   "C67_program_hex",
   "C68_post_quad",
   "C68_post_hex"
  ],
  "note": "survived: statement used the stepper name mapping of the model; now StepperType.scheme of the specification; see b6-1, b6-2"
 },
 "b5-4": {
  "tightened": [
   "C67_program_quad",
   "C67_program_hex",
   "C68_post_quad",
   "C68_post_hex"
  ],
  "note": "survived: statement used the stepper name mapping of the model; now StepperType.scheme of the specification; see b6-1, b6-2"
 },
 "b9-13": {
  "tightened": [],
  "note": "equivalent edit (all iterations on one thread is one of the distributions): only the proof script broke, the claim still holds"
 },
 "b9-43": {
  "tightened": [],
  "note": "the edit only leaks memory, which no claim forbids: only the proof script broke"
 },
 "b10-39": {
  "tightened": [
   "C69_quad_normals_race",
   "C69_hex_normals_race"
  ],
  "note": "survived: the race examples started from zeroed memory, so the clearing loop did not matter; they now start from memory full of 7"
 },
 "b10-83": {
  "tightened": [],
  "note": "equivalent: the gradient of a one-dimensional basis has one component, the others are never read"
 },
 "b10-100": {
  "tightened": [
   "C71_print_view_2"
  ],
  "note": "survived: only print and print_3d_view had their text stated; now all overloads have"
 },
 "b10-101": {
  "tightened": [
   "C71_print_view_1"
  ],
  "note": "survived: only print and print_3d_view had their text stated; now all overloads have"
 },
 "b14-15": {
  "tightened": [
   "C88_opens"
  ],
  "note": "survived: C88_modes only spoke about calls of open that succeed; C88_opens states exactly when they succeed"
 },
 "b16-22": {
  "tightened": [
   "C90_restart_needs",
   "C90_restart_one_missing",
   "C90_convert_one_missing"
  ],
  "note": "survived at first: only the order of the first few calls was fixed by the theorems; now what is needed and what each missing object does is stated"
 },
 "b16-23": {
  "tightened": [
   "C90_restart_one_missing",
   "C90_convert_one_missing"
  ],
  "note": "survived at first: only the order of the first few calls was fixed by the theorems; now what is needed and what each missing object does is stated"
 },
 "b16-24": {
  "tightened": [
   "C90_restart_needs",
   "C90_restart_one_missing"
  ],
  "note": "survived at first: only the order of the first few calls was fixed by the theorems; now what is needed and what each missing object does is stated"
 },
 "b16-25": {
  "tightened": [],
  "note": "survived at first: the offsets have been found before (dimsCalls), so the edit does not change what happens; the new C90_restart_needs fails only because its list of calls changed"
 },
 "b16-26": {
  "tightened": [],
  "note": "survived at first: a restart reads the dimensions twice, so leaving out the second reading does not change what happens; the new C90_restart_needs fails only because its list of calls changed"
 }
}