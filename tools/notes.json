{
 "C12": {
  "note": "What a user expects (npartitions in [Mesh] honoured) is refuted by C12_not_honoured; the statement is the complete description of what happens instead."
 },
 "C23": {
  "note": "The exception is a defect of the code (pts(16) assigned twice, nodes.cpp 343)."
 },
 "C24": {
  "note": "Exception: the defect of orders 36/37."
 },
 "C26": {
  "note": "Exception: the defect of orders 36/37."
 },
 "C29": {
  "note": "'Whatever the store held' is false for the code from four basis functions on; C29_store_iff says exactly when it holds."
 },
 "C30": {
  "note": "At order 0 the code uses different rules for mass matrix and projection."
 },
 "C32": {
  "note": "Antisymmetry fails for crossing wave-speed estimates (C32_antisymmetry_fails exhibits one); C32_antisymmetric_iff is the complete statement."
 },
 "C34": {
  "note": "The 3D routine ignores time: C34_3d_not_solution holds at every time and position."
 },
 "C35": {
  "note": "Rejection of unsupported combinations is refuted; C35_sets_all_iff is the complete statement."
 },
 "C49": {
  "note": "Odd orders and the un-normalised variant are not norms; C49_every_order says what is reported."
 },
 "C57": {
  "note": "Normals are evaluated at orientation-0 points of each side (and transposed for hexahedra): C57_*_agree_iff/permuted say exactly when the ranks agree, C57_quad_curved_normals_differ and C57_hex_twisted_normals_differ exhibit disagreement."
 },
 "C81": {
  "note": "Smoothness of the exact solution is a hypothesis of the order statements (TimeOrderExample meets it with linear fluxes; C82 gives solutions of the Euler equations)."
 },
 "C82": {
  "note": "Up to a time before which the semidiscrete solution stays in regular states (admissible, HLLC waves in order); outside of them HLLC is discontinuous, which is proved."
 },
 "C83": {
  "note": "Constants exist but are not computed; underflow and fused multiply-add are not modelled."
 },
 "C84": {
  "note": "Same idealisations of arithmetic as C83; exp and pow of the library with error up to 4u."
 },
 "C85": {
  "note": "Numbers of the input file and mesh file are read within a multiple κ of the unit roundoff (hypothesis); same idealisations of arithmetic as C83."
 },
 "C87": {
  "note": "Normals are computed by one thread per face: with more, the kernel has the data race described in C69."
 },
 "C88": {
  "note": "The HDF5 library is taken as documented; it numbers its handles consecutively (no number is given twice)."
 },
 "C89": {
  "note": "Library calls take effect when made, and a crash may lose any set of whole objects; torn blocks inside of a dataset are not modelled."
 },
 "C90": {
  "note": "An exit of a rank is not propagated to the others (as MPI allows; most launchers then kill the job)."
 },
 "C91": {
  "note": "Views of raw arrays only; members and local views are destructed by the compiler. Host execution space (a mirror is the array itself)."
 }
}