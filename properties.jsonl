{"id": "C01", "title": "Simulated time never passes final_time", "statement": "In a transient run, every time at which the solver is called and every time at which results are post-processed is at most final_time, provided the initial stepsize is at most final_time. If the initial stepsize is larger than final_time, the run consists of exactly one accepted step, taken at time initial_value > final_time.", "quantifier": "every Stepsize configuration (change ratio, max_stepsize function, dt_min, milestones), every final_time, every finite history of Newton outcomes (iteration counts, convergence flags)", "why_tests_cant": "The clipping interacts with adaptation, milestones and retries; histories are unbounded.", "anchors": ["festim/generic_simulation.py:Simulation.iterate", "festim/generic_simulation.py:Simulation.run_transient", "festim/stepsize.py:Stepsize.adapt", "festim/h_transport_problem.py:HTransportProblem.update"]}
{"id": "C02", "title": "Accepted times strictly increase", "statement": "The times of the accepted steps of a transient run form a strictly increasing sequence starting above 0, whenever initial_value, the change ratio and every value returned by max_stepsize are positive.", "quantifier": "every such configuration and every history of Newton outcomes", "why_tests_cant": "Needs an invariant on the stepsize over arbitrarily long adaptation histories.", "anchors": ["festim/generic_simulation.py:Simulation.iterate", "festim/stepsize.py:Stepsize.adapt"]}
{"id": "C03", "title": "A finished run ends at final_time and only the last step is there", "statement": "When run() returns normally from a transient simulation that did not overshoot, the last accepted time t satisfies final_time*(1-1e-5) <= t <= final_time, and no earlier accepted time is that close to final_time. A run never stops before that other than by raising.", "quantifier": "every configuration with 0 < initial_value <= final_time, every history of Newton outcomes", "why_tests_cant": "Depends on the interplay of loop guard, np.isclose tolerance and clipping on all histories.", "anchors": ["festim/generic_simulation.py:Simulation.run_transient", "festim/generic_simulation.py:Simulation.iterate"]}
{"id": "C04", "title": "A constant stepsize visits the uniform grid and stops", "statement": "With a constant stepsize h (0<h<=final_time) and a solver that always converges, the k-th accepted time is exactly min(k*h, final_time) and run() returns after at most ceil(final_time/h) solves.", "quantifier": "all h, all final_time, all iteration counts", "why_tests_cant": "Unbounded number of steps; tests use a handful of (h, final_time) pairs.", "anchors": ["festim/generic_simulation.py:Simulation.iterate", "festim/generic_simulation.py:Simulation.run_transient", "festim/stepsize.py:Stepsize"]}
{"id": "C05", "title": "Milestones are not jumped over", "statement": "If an accepted step goes from t to t' across a milestone m (t < m < t'), then t was already within relative 1e-5 of the first milestone after t. Consequently each milestone between the first and last accepted times is an accepted time, or is jumped by a step starting in the 1e-5 band just below a milestone.", "quantifier": "every milestone list (unsorted, duplicates), every configuration with a milestone list, every history", "why_tests_cant": "A universally quantified statement over milestone sets and histories; the band case is a corner that sampling misses.", "anchors": ["festim/stepsize.py:Stepsize.adapt", "festim/stepsize.py:Stepsize.next_milestone", "festim/generic_simulation.py:Simulation.iterate"]}
{"id": "C06", "title": "Milestones are reached within tolerance", "statement": "If no stepsize can exceed H and any two milestones are at least H apart, each milestone m with first accepted time <= m <= last accepted time has an accepted time t with |t-m| <= 1e-5*|m|. Without separation the claim is false: milestones 1.000001 and 1.5 with a step of 1 from t=1 jumps 1.5.", "quantifier": "every separated milestone list, every configuration and history", "why_tests_cant": "Requires induction over the whole history.", "anchors": ["festim/stepsize.py:Stepsize.adapt", "festim/stepsize.py:Stepsize.next_milestone"]}
{"id": "C07", "title": "max_stepsize caps every step but the first", "statement": "In an adaptive run every accepted step after the first one, going from t to t', satisfies t'-t <= max_stepsize(t) when max_stepsize (constant or callable, or the deprecated t_stop/stepsize_stop_max pair) is set there; the first step is initial_value regardless of max_stepsize; without stepsize_change_ratio max_stepsize has no effect at all; and stepsize_stop_max without t_stop makes an adaptive run raise after its first solve (TypeError if it converged), before any step is accepted.", "quantifier": "every max_stepsize constant/function, every configuration and history", "why_tests_cant": "max_stepsize is an arbitrary function of time.", "anchors": ["festim/stepsize.py:Stepsize.__init__", "festim/stepsize.py:Stepsize.adapt"]}
{"id": "C08", "title": "Step growth is bounded by the change ratio", "statement": "In an adaptive run with change ratio >= 1 and positive steps, the step following an accepted step is never longer than change_ratio times the stepsize with which that step was solved; if the accepting solve needed 5 or more iterations it is at most that stepsize divided by the ratio.", "quantifier": "every configuration and history", "why_tests_cant": "Clips from max_stepsize, milestones and final_time all modify the value.", "anchors": ["festim/stepsize.py:Stepsize.adapt", "festim/generic_simulation.py:Simulation.iterate"]}
{"id": "C09", "title": "Only converged solves are accepted", "statement": "A time step is recorded (previous solution overwritten, exports written) exactly when a Newton solve reports convergence and the adaptation of the stepsize after it does not raise: as long as the run goes on, the accepted steps are the converged solves, in order. A diverged solve of an adaptive run with dt_min unset raises ValueError, and after a raise nothing more is accepted.", "quantifier": "every configuration and history", "why_tests_cant": "Needs all divergence patterns.", "anchors": ["festim/h_transport_problem.py:HTransportProblem.update", "festim/stepsize.py:Stepsize.adapt"]}
{"id": "C10", "title": "Repeated divergence ends in an error", "statement": "In an adaptive run with change ratio r > 1 and dt_min > 0, if every further solve diverges after 5 or more iterations the run raises ValueError (or the exception of a max_stepsize function that cannot be evaluated) after a bounded number of attempts, the bound depending only on the current stepsize, r and dt_min, and each failed attempt divides the stepsize by r*r at least.", "quantifier": "every reachable state, every ratio and dt_min", "why_tests_cant": "Termination claim.", "anchors": ["festim/h_transport_problem.py:HTransportProblem.update", "festim/stepsize.py:Stepsize.adapt"]}
{"id": "C11", "title": "Livelock of the retry loop: exact conditions", "statement": "If the solver keeps diverging, run() hangs forever (never raises, never accepts) when no adaptive stepsize is configured, and also in adaptive runs when each failed solve reports fewer than 5 iterations and stepsize/ratio >= dt_min: the stepsize is divided and multiplied back. The condition is exact: with such failures the run hangs if and only if both the current stepsize and the one left by the first failure (capped by max_stepsize and the next milestone) divided by the ratio are at least dt_min, and otherwise raises ValueError within two failures.", "quantifier": "every configuration satisfying the conditions, attempts of any number", "why_tests_cant": "Non-termination is not testable.", "anchors": ["festim/h_transport_problem.py:HTransportProblem.update", "festim/stepsize.py:Stepsize.adapt"]}
{"id": "C12", "title": "Time accounting of accepted steps", "statement": "The accepted time increments add up to the current time. The increment equals the stepsize used in the equations for every step that converged at the first attempt; if the solver diverged (5+ iterations, ratio > 1, dt_min set) before converging, the equations were solved with a strictly smaller stepsize than the increment of the clock (t is not rolled back).", "quantifier": "every configuration and history", "why_tests_cant": "Quantifies over retry patterns and all states.", "anchors": ["festim/generic_simulation.py:Simulation.iterate", "festim/h_transport_problem.py:HTransportProblem.update"]}
{"id": "C13", "title": "Clock of extrinsic trap densities", "statement": "Extrinsic trap densities are advanced once per accepted step with the stepsize chosen for the next step: with a constant stepsize without milestones this equals the step just solved; in an adaptive run it differs whenever adaptation changed the value, so the accumulated time of the density equation is not the simulation time.", "quantifier": "every configuration and history", "why_tests_cant": "Ordering of effects over all histories.", "anchors": ["festim/h_transport_problem.py:HTransportProblem.update", "festim/concentration/traps/traps.py:Traps.solve_extrinsic_traps"]}
{"id": "C14", "title": "Termination of transient runs", "statement": "If every solve converges in fewer than 5 iterations (or the stepsize is not adaptive and every solve converges), the change ratio is >= 1, initial_value > 0 and max_stepsize is bounded below by some positive delta, run() returns after a bounded number of steps for any milestone list. If every solve converges but needs 5+ iterations, steps shrink geometrically and run() never returns when final_time exceeds initial_value*r/(r-1) by the tolerance, whatever dt_min is.", "quantifier": "every configuration in the class, all final times", "why_tests_cant": "Termination and non-termination.", "anchors": ["festim/generic_simulation.py:Simulation.run_transient", "festim/stepsize.py:Stepsize.adapt"]}
{"id": "C15", "title": "Semantics of dt_min", "statement": "dt_min is consulted only after a diverged solve: two runs that differ only in dt_min (both set) and whose solver never diverges accept the same times; after a divergence the run raises exactly when stepsize/ratio < dt_min.", "quantifier": "every pair of configurations, every history", "why_tests_cant": "Relational claim over two executions.", "anchors": ["festim/stepsize.py:Stepsize.adapt"]}
{"id": "C16", "title": "XDMF cadence", "statement": "An XDMFExport with mode n (positive int) writes exactly at the accepted steps number 0, n, 2n, ... counted since the exports object was created; mode 1 writes every step. The mode setter accepts exactly the positive integers and \"last\"; everything else raises ValueError.", "quantifier": "every n, every number of steps", "why_tests_cant": "The schedule is a statement about every step of runs of any length; tests check a few calls of is_export.", "anchors": ["festim/exports/xdmf_export.py:XDMFExport.is_export", "festim/exports/exports.py:Exports.write"]}
{"id": "C17", "title": "'last' exports fire exactly once at the end", "statement": "In a transient run that returns and whose initial stepsize does not exceed final_time, an XDMFExport in mode 'last' holds exactly one record, the last accepted step. If the initial stepsize exceeds final_time by more than relative 1e-5 it writes nothing, and in a steady run it makes post-processing raise.", "quantifier": "every configuration and history that finishes", "why_tests_cant": "Composition of the export condition with all time-stepping histories.", "anchors": ["festim/exports/xdmf_export.py:XDMFExport.is_export", "festim/generic_simulation.py:Simulation.run_transient"]}
{"id": "C18", "title": "Derived-quantities table is rectangular and time-stamped", "statement": "After any run, the in-memory table of a DerivedQuantities export has one header row followed by one row per computed step; each row has one entry per quantity plus time; the time column, the t list of the object and the t list of every quantity agree and each quantity's data column agrees with its own data list.", "quantifier": "every list of quantities, every run", "why_tests_cant": "Structural invariant across several mutable lists over all histories.", "anchors": ["festim/exports/derived_quantities/derived_quantities.py:DerivedQuantities.compute", "festim/exports/derived_quantities/derived_quantities.py:DerivedQuantities.write", "festim/exports/exports.py:Exports.initialise_derived_quantities"]}
{"id": "C19", "title": "Derived-quantities schedule", "statement": "Quantities are computed exactly at the iterations that are multiples of nb_iterations_between_compute. The csv file, if a filename is set, holds the table as of the last iteration at which it was due: a multiple of nb_iterations_between_exports if that is set, otherwise a time within 1e-5 of final_time, and always in steady state. It is untouched if never due. A filename without a directory part makes every such write raise.", "quantifier": "every pair of cadences, every number of steps", "why_tests_cant": "Two periods, the final-time tolerance and the iteration counter interact over runs of any length.", "anchors": ["festim/exports/derived_quantities/derived_quantities.py:DerivedQuantities.is_compute", "festim/exports/derived_quantities/derived_quantities.py:DerivedQuantities.is_export"]}
{"id": "C20", "title": "Final CSV holds every computed row", "statement": "If a DerivedQuantities export has a filename and no nb_iterations_between_exports, then after a finished transient run without overshoot the file equals the complete in-memory table. With nb_iterations_between_exports = n the file holds exactly the rows computed up to the last iteration that is a multiple of n, so rows of the last steps may be missing.", "quantifier": "every run and cadence", "why_tests_cant": "Composition of export scheduling and time stepping.", "anchors": ["festim/exports/derived_quantities/derived_quantities.py:DerivedQuantities.write", "festim/exports/derived_quantities/derived_quantities.py:DerivedQuantities.is_export"]}
{"id": "C21", "title": "TXT export columns", "statement": "The matrix held by a TXTExport has one x column followed by one column per export time, the header lists 'x' and the export times in order, and each row has the same length.", "quantifier": "every run, every list of times", "why_tests_cant": "Invariant on header/data for all histories.", "anchors": ["festim/exports/txt_export.py:TXTExport.write"]}
{"id": "C22", "title": "TXT export times are honoured", "statement": "After initialise() the milestones are exactly the user's milestones and all requested TXT times. In a finished run whose steps are at most H and whose milestones are at least H apart, every requested time between the initial stepsize and final_time has a column at an accepted time within relative 1e-5, except when the run stops at a time t with time*(1-1e-5) <= t < time/(1+1e-5): close enough for the stepsize to count the milestone as reached, not close enough to be exported. This exception does occur.", "quantifier": "every list of requested times and every history", "why_tests_cant": "Composition of initialise, milestones and export condition.", "anchors": ["festim/generic_simulation.py:Simulation.initialise", "festim/exports/txt_export.py:TXTExport.is_it_time_to_export", "festim/stepsize.py:Stepsize.milestones"]}
{"id": "C23", "title": "TXT write_at_last", "statement": "With write_at_last the file is written only at the final export: at the last requested time, or at final_time if no times are requested. If the largest requested time is never reached, no file is written at all.", "quantifier": "every history", "why_tests_cant": "Quantifies over runs.", "anchors": ["festim/exports/txt_export.py:TXTExport.is_last", "festim/exports/txt_export.py:TXTExport.write"]}
{"id": "C24", "title": "TXT rows are sorted and deduplicated consistently", "statement": "The values written in a row of the TXT file belong to the coordinate in that row: with the filter, sorting/unique selection is applied with the same permutation to coordinates and values, the x column is sorted, and no (coordinate, cell) information other than duplicates is dropped.", "quantifier": "every mesh coordinate list and value list", "why_tests_cant": "Permutation property for all inputs.", "anchors": ["festim/exports/txt_export.py:TXTExport.initialise", "festim/exports/txt_export.py:TXTExport.write", "festim/exports/txt_export.py:TXTExport.filter"]}
{"id": "C25", "title": "Re-initialising resets recorded data", "statement": "Calling initialise() again before a run makes the tables of derived quantities and the txt exports depend only on the new run, up to the iteration counter of the exports. This counter is never reset: it counts the accepted steps of all runs, so the schedule of the second run is that of a first run exactly if the periods divide the number of earlier steps (with period 2, a one-step run repeated leaves an empty table), and an XDMF export goes on appending to its file.", "quantifier": "every pair of runs", "why_tests_cant": "Stateful two-run property.", "anchors": ["festim/generic_simulation.py:Simulation.initialise", "festim/exports/exports.py:Exports.initialise_derived_quantities", "festim/exports/txt_export.py:TXTExport.initialise"]}
{"id": "C26", "title": "Accepted borders tile the domain", "statement": "If each interval is nondegenerate, check_borders accepts exactly when every material has borders and the intervals tile [0, size]: each point of [0, size] is in an interval, no other point is, and two intervals share at most an endpoint; the order in which they are listed is irrelevant. The accepted intervals have total length size. With an interval of length zero the verdict depends on the order.", "quantifier": "every finite list of materials with borders (single or multiple intervals), every size", "why_tests_cant": "Unbounded lists and real parameters.", "anchors": ["festim/materials/materials.py:Materials.check_borders"]}
{"id": "C27", "title": "Every point of a checked 1D domain belongs to exactly one material", "statement": "When borders have been accepted (and no material writes a single interval as [[a, b]], and each list of ids is as long as its list of intervals), find_subdomain_from_x_coordinate returns for every x strictly inside an interval the id of that interval, independently of the order of the materials, and for every x of the domain, interfaces included, the id of an interval containing it; outside the domain it returns 0. A material with borders [[a, b]] is accepted but makes the lookup raise TypeError; a list of ids shorter than its list of borders is accepted and the points of the remaining intervals get 0.", "quantifier": "every rational x, every list of materials of any length, in any order", "why_tests_cant": "Continuum of points and unbounded lists.", "anchors": ["festim/materials/materials.py:Materials.find_subdomain_from_x_coordinate", "festim/materials/materials.py:Materials.check_borders"]}
{"id": "C28", "title": "Cell markers and material lookup agree", "statement": "In 1D with accepted borders and ids and a mesh that does not start below 0, the marker of each cell is the id of an interval containing its midpoint, and find_material_from_id of the marker returns a material having this interval. If the ends of the intervals are vertices of the mesh the whole cell lies in it. If the mesh starts below 0, cells there are marked 0, for which no material is found unless one has id 0. A single material without borders marks all cells with its id.", "quantifier": "every vertex list and accepted materials", "why_tests_cant": "Every mesh (list of vertices) and every accepted list of materials.", "anchors": ["festim/meshing/mesh_1d.py:Mesh1D.define_volume_markers", "festim/materials/materials.py:Materials.find_material_from_id"]}
{"id": "C29", "title": "Material ids are unique after checking", "statement": "check_unique_ids accepts exactly the material lists whose ids (flattened over list-valued ids) are pairwise distinct; then find_material_from_id returns for each id the unique material carrying it.", "quantifier": "every list of materials with int or list ids", "why_tests_cant": "Lists of any length with int or list ids.", "anchors": ["festim/materials/materials.py:Materials.check_unique_ids", "festim/materials/materials.py:Materials.find_material_from_id"]}
{"id": "C30", "title": "Optional material properties are all-or-none", "statement": "check_consistency accepts exactly when each optional property is given for all materials or for none, and otherwise the ValueError names a property which some materials define and others do not; check_missing_properties raises exactly when a property needed by the selected physics is missing, and the ValueError names the first missing one of thermal_cond, heat_capacity and rho. A material can be created exactly when S_0 and E_S are both given or both left out; otherwise the ValueError names the missing one.", "quantifier": "every list of materials and every combination of physics", "why_tests_cant": "Combinatorial in the number of materials.", "anchors": ["festim/materials/materials.py:Materials.check_consistency", "festim/materials/materials.py:Materials.check_missing_properties", "festim/materials/material.py:Material.check_properties"]}
{"id": "C31", "title": "Mesh from vertices", "statement": "A 1D mesh built from any list of vertices has cells that are exactly the intervals between consecutive distinct sorted vertices; their union is [min,max]; order and duplicates in the list are irrelevant.", "quantifier": "every vertex list with at least two distinct values", "why_tests_cant": "Vertex lists of any length, order and multiplicity.", "anchors": ["festim/meshing/mesh_from_vertices.py:MeshFromVertices.generate_mesh_from_vertices"]}
{"id": "C32", "title": "Surface markers in 1D", "statement": "For every 1D mesh with at least two vertices which are pairwise farther apart than the tolerance of the marking routine, the left end facet is marked 1, the right end facet 2 and all the others 0. On a mesh not longer than the tolerance no facet is marked 1.", "quantifier": "every vertex list / size", "why_tests_cant": "All meshes; the tolerance case is not sampled by tests.", "anchors": ["festim/meshing/mesh_1d.py:Mesh1D.define_surface_markers"]}
{"id": "C33", "title": "Material lookup functions are mutually consistent", "statement": "For any list of materials with unique ids and names, find_material returns the same material by int id, by name and by object. A lookup by id or name that returns gives a material of the list with that id or name, and it raises ValueError exactly if there is none. A tag of any other type (a numpy integer for instance) is not refused: find_material returns None.", "quantifier": "every list of materials", "why_tests_cant": "Lists of any length and all types of tag.", "anchors": ["festim/materials/materials.py:Materials.find_material", "festim/materials/materials.py:Materials.find_material_from_name"]}
{"id": "C34", "title": "Every source ends up in exactly one equation", "statement": "attribute_source_terms succeeds exactly when the field of each source denotes an equation of the problem (solute, a trap position, the temperature with a HeatTransferProblem) or the source is a decay of all species. Then each equation has exactly the sources that target it, in order and once per occurrence, whatever it held before: each source goes to one equation, except a decay of all species, which goes to the mobile equation and to that of each trap.", "quantifier": "every list of sources and traps", "why_tests_cant": "Lists of sources and traps of any length, repeated initialisation.", "anchors": ["festim/generic_simulation.py:Simulation.attribute_source_terms"]}
{"id": "C35", "title": "Boundary-condition checks: soundness and completeness", "statement": "attribute_boundary_conditions (with its check) succeeds exactly when every field is known, no Dirichlet condition or SurfaceKinetics shares a surface and a field label with another condition, SurfaceKinetics is used in 1D only, and temperature conditions are used with a HeatTransferProblem. A refusal is about the first faulty condition: TypeError exactly for a temperature condition without HeatTransferProblem, ValueError for every other fault. When the fields of Dirichlet conditions are ints, two different Dirichlet conditions are then never imposed on the same component and surface. But 0 and '0' are not recognised as the same field, the same object listed twice is not refused, and a Dirichlet condition with a string field raises TypeError when the function space is mixed.", "quantifier": "every list of boundary conditions", "why_tests_cant": "Pairs of conditions in lists of any length, with aliases of the same field.", "anchors": ["festim/generic_simulation.py:Simulation.check_boundary_conditions"]}
{"id": "C36", "title": "Flux boundary conditions reach the equation exactly when the field is the solute", "statement": "After initialise, each flux condition with field 0/'solute' contributes to the mobile equation exactly once, those with field 'T' to the heat equation exactly once, and conditions on any other accepted field ('0', a trap id) are silently dropped.", "quantifier": "every accepted list", "why_tests_cant": "Lists of conditions of any length; nothing is raised when a condition is dropped.", "anchors": ["festim/h_transport_problem.py:HTransportProblem.attribute_flux_boundary_conditions", "festim/generic_simulation.py:Simulation.attribute_boundary_conditions"]}
{"id": "C37", "title": "Trap ids: agreement of positions and ids", "statement": "With default ids, field k (int or string) denotes trap k, component k of the solution, in exports, sources, initial conditions and boundary conditions. With custom ids exports address the last trap with the id while sources and boundary conditions go by position; they agree for all traps exactly when each id is the position. Ids given by an earlier initialise are kept, so exchanging two traps exchanges the meaning of export fields; a default id may collide with a custom one, and then one of the traps cannot be exported.", "quantifier": "every trap list", "why_tests_cant": "Trap lists of any length with arbitrary ids, and histories of initialise.", "anchors": ["festim/concentration/traps/traps.py:Traps.assign_traps_ids", "festim/concentration/traps/traps.py:Traps.get_trap", "festim/generic_simulation.py:Simulation.update_post_processing_solutions"]}
{"id": "C38", "title": "Solution components are in bijection with unknowns", "statement": "The mixed function space has 1 + #traps (non-extrinsic ones included) + #surface-kinetics surfaces components, and the split solution is handed back to the same object that was assigned the component at initialisation.", "quantifier": "every set of traps and surface-kinetics conditions", "why_tests_cant": "Index arithmetic over arbitrary lists.", "anchors": ["festim/h_transport_problem.py:HTransportProblem.define_function_space", "festim/h_transport_problem.py:HTransportProblem.initialise_concentrations", "festim/h_transport_problem.py:HTransportProblem.update_post_processing_solutions"]}
{"id": "C39", "title": "Initial conditions reach the right component", "statement": "With default trap ids every component starts from the last initial condition given for its field, or from zero if there is none; adsorbed concentrations start from the value of their SurfaceKinetics; a field that denotes no component raises. With custom ids a condition on field j goes to the trap whose id is the position of the last trap with id j, hence to the wrong trap (ids 2 and 1) or to an exception (a single trap with id 5).", "quantifier": "every list of initial conditions and traps", "why_tests_cant": "Lists of any length, arbitrary ids.", "anchors": ["festim/h_transport_problem.py:HTransportProblem.initialise_concentrations", "festim/initial_condition.py"]}
{"id": "C40", "title": "Typed containers only hold objects of their type", "statement": "A Materials/Traps/Exports/DerivedQuantities container built by its constructor and modified by any sequence of append, extend, insert, item assignment and deletion, including failing ones, holds only elements of the right type. Operations on a single element are atomic; extend with an invalid element raises TypeError but keeps the elements before it; += bypasses the check.", "quantifier": "every sequence of operations, and every program that creates containers, gives them to simulations and modifies them", "why_tests_cant": "Invariant over arbitrary operation histories.", "anchors": ["festim/materials/materials.py:Materials", "festim/concentration/traps/traps.py:Traps", "festim/exports/exports.py:Exports", "festim/exports/derived_quantities/derived_quantities.py:DerivedQuantities"]}
{"id": "C41", "title": "Trapping conserves hydrogen", "statement": "Add the mobile equation and all trap equations tested with the same function: the result does not depend on trapping and detrapping rates, activation energies or densities; it contains only the rate of change of mobile + trapped concentration, diffusion (with Soret), sources and boundary fluxes.", "quantifier": "every mesh and quadrature, in the three kinds of coordinates, any number of materials, traps, sources and conditions, every test function", "why_tests_cant": "The identity holds for all fields and test functions; tests compare forms term by term for small examples.", "anchors": ["festim/concentration/traps/trap.py:Trap.create_trapping_form", "festim/concentration/mobile.py:Mobile.create_form"]}
{"id": "C42", "title": "Global hydrogen balance", "statement": "In a transient simulation tested with the weight of the coordinates (1, r, r^2), the residual vanishes exactly when the change of the inventory (mobile + trapped) over the step is dt times what is supplied by sources and inward boundary fluxes; over a run the change is the sum. With the piecewise affine elements of FESTIM on a 1D cartesian or cylindrical mesh without Dirichlet conditions this holds exactly; on a spherical mesh it does not, since r^2 is not a test function: hydrogen can be lost without any flux or source although the discrete equations are solved. Exception: with conservation of the chemical potential and a HeatTransferProblem (whose previous temperature is already the new one) the inventory changes in addition by that of the old unknown between the two temperatures.", "quantifier": "every mesh, materials, traps, sources, flux conditions, temperature fields and stepsizes", "why_tests_cant": "Universal over fields, meshes and sequences of steps.", "anchors": ["festim/concentration/mobile.py:Mobile.create_form", "festim/concentration/traps/trap.py:Trap.create_form", "festim/h_transport_problem.py:HTransportProblem.define_variational_problem"]}
{"id": "C43", "title": "Cylindrical and spherical forms", "statement": "On a cylindrical (spherical) mesh whose quadrature points avoid r=0, the whole hydrogen problem tested with v is the Cartesian problem for the measure r dr (r^2 dr) tested with v/r (v/r^2). Written out, the diffusion integrand is J.grad(v) - v/r J.grad(r) (resp. 2 v/r): the terms of the diffusion operator in these coordinates. A mesh whose type is none of the three known strings has no diffusion at all.", "quantifier": "every mesh, fields, sources, traps, flux conditions (without surface kinetics) and test function", "why_tests_cant": "Identity between functionals of arbitrary fields and test functions.", "anchors": ["festim/concentration/mobile.py:Mobile.create_diffusion_form"]}
{"id": "C44", "title": "Traps live only in their materials", "statement": "In a volume where a trap is not defined, a transient step leaves the trapped concentration unchanged (no trapping), and a steady solve forces it to zero, if the test functions can be cut off at the boundary of its materials as with discontinuous elements (with the default continuous elements see C111).", "quantifier": "every set of trap materials, every mesh", "why_tests_cant": "All sets of trap materials, meshes and fields; tests compare forms for one trap.", "anchors": ["festim/concentration/traps/trap.py:Trap.create_trapping_form"]}
{"id": "C45", "title": "Trap occupancy stays physical", "statement": "Where the trap equation of an implicit step holds pointwise, with non-negative rates, mobile concentration and previous trapped concentration not above the trap density, the new trapped concentration lies between 0 and the trap density, and it is unique.", "quantifier": "all rates, concentrations, dt > 0", "why_tests_cant": "A bound for all parameters, and an invariant over runs of any length.", "anchors": ["festim/concentration/traps/trap.py:Trap.create_trapping_form"]}
{"id": "C46", "title": "Extrinsic trap density bounds", "statement": "Where the density equation of an extrinsic trap holds pointwise, with non-negative flux, production parameters and previous density, the density stays non-negative and at most the largest of its previous value and the two saturation densities n_amax, n_bmax, and does not decrease while it is below both; over a run it stays below the largest of its initial value and of the saturation densities.", "quantifier": "all parameters", "why_tests_cant": "A bound for all parameters, and an invariant over runs of any length.", "anchors": ["festim/concentration/traps/extrinsic_trap.py:ExtrinsicTrap.create_form_density"]}
{"id": "C47", "title": "Neutron-induced trap density", "statement": "Where its equation holds pointwise, the density of a neutron-induced trap stays in [0, n_max], does not decrease without annealing, and does not increase without irradiation; the bounds hold over any run.", "quantifier": "all parameters", "why_tests_cant": "A bound for all parameters, and an invariant over runs of any length.", "anchors": ["festim/concentration/traps/neutron_induced_trap.py:NeutronInducedTrap.create_form_density"]}
{"id": "C48", "title": "Surface kinetics conserves hydrogen", "statement": "With a SurfaceKinetics condition and without chemical potential, the exchange between subsurface and surface cancels when bulk and adsorbed equations are tested together, for arbitrary rate functions: bulk + lambda_IS layer + adsorbed inventory changes only by J_vs, other fluxes and sources. On every surface the adsorbed concentration changes by J_bs - J_sb + J_vs. With conservation of the chemical potential the layer is given the previous unknown instead of the previous concentration, so a step creates lambda_IS*(theta_n - c_n) per unit area.", "quantifier": "all rate functions, fields and meshes", "why_tests_cant": "Universal over user-supplied functions.", "anchors": ["festim/boundary_conditions/fluxes/surface_kinetics.py:SurfaceKinetics.create_form"]}
{"id": "C49", "title": "Sign of fluxes", "statement": "With a single flux condition and no source, a converged step changes the inventory by dt times the surface integral of the value of the condition: FluxBC with value >= 0, DissociationFlux with Kd_0, P >= 0 and MassFlux below the external concentration add hydrogen, RecombinationFlux with Kr_0 >= 0 and MassFlux above the external concentration remove it. In steady state D grad(c).n equals the value: it is an inward flux, the opposite of the sign written in the documentation of FluxBC.", "quantifier": "all parameters and solutions", "why_tests_cant": "For all parameters, fields and meshes; tests compare the form with itself.", "anchors": ["festim/boundary_conditions/fluxes/flux_bc.py", "festim/boundary_conditions/fluxes/recombination_flux.py", "festim/concentration/mobile.py:Mobile.create_fluxes_form"]}
{"id": "C50", "title": "Diffusion step is stable and unique", "statement": "For pure diffusion (no traps, sources, Soret effect) an implicit step does not increase the L2 norm (weighted by r or r^2), for any mesh, coordinates, non-negative diffusion coefficients and stepsize, if the flux conditions do not feed the solution. A step of the full problem with traps has at most one solution with non-negative mobile concentration, if flux conditions are monotone, decay constants non-negative and the previous trapped concentrations between zero and the density (no chemical potential, Soret effect or trap sources).", "quantifier": "all meshes, D fields, dt > 0", "why_tests_cant": "Universal over meshes, coefficients and solutions.", "anchors": ["festim/concentration/mobile.py:Mobile.create_diffusion_form"]}
{"id": "C51", "title": "Chemical potential variable round trip", "statement": "What initialise stores as chemical potential is the projection of the potential of the given concentration on the finite element space. If this potential is in the space, the initial concentration of the simulation is the given (non-negative) one at every point, for Sievert and Henry materials. It is not in a space of continuous functions when a uniform concentration is given in two materials of different solubilities: with solubilities 1 and 2 an inventory of 4 becomes 33/8.", "quantifier": "all meshes, spaces, materials, temperatures and concentrations", "why_tests_cant": "Universal real identity.", "anchors": ["festim/concentration/theta.py:Theta.initialise", "festim/concentration/theta.py:Theta.get_concentration_for_a_given_material"]}
{"id": "C52", "title": "Chemical potential continuity at interfaces", "statement": "With theta continuous, concentrations on both sides of an interface satisfy the partial-pressure equality for the laws of the two materials (S/S, H/H, S/H).", "quantifier": "all pairs of materials (both laws), temperatures and values of the unknown", "why_tests_cant": "For all solubilities, temperatures and laws of two materials.", "anchors": ["festim/concentration/theta.py:Theta.get_concentration_for_a_given_material", "festim/materials/materials.py:Materials.create_solubility_law_markers"]}
{"id": "C53", "title": "Both definitions of mobile concentration agree", "statement": "The concentration in the diffusion and trapping terms (material by material) and the one in sources and boundary fluxes (with the markers of the solubility laws) coincide in the volume and on the boundary; the post-processed one has the same integral against every function of its space, hence the same inventory in every volume, and the same values if the space contains it. In a cell whose marker is the id of no material, evaluating a property or an imposed concentration raises ValueError.", "quantifier": "all lists of materials with distinct ids, all meshes, fields and temperatures", "why_tests_cant": "For all lists of materials and fields; three definitions in different files have to agree.", "anchors": ["festim/concentration/theta.py:Theta.mobile_concentration", "festim/concentration/theta.py:Theta.create_form_post_processing"]}
{"id": "C54", "title": "Dirichlet values are converted to theta consistently", "statement": "Imposing c on the mobile species (DirichletBC, SievertsBC, HenrysBC, ImplantationDirichlet) in a chemical-potential simulation imposes the unknown whose concentration is c: exactly in Sievert materials, c + 3e-16*S in Henry materials (c >= 0). Without chemical potential or for a trap the value is imposed as given. A SievertsBC (HenrysBC) with the solubility of the material imposes the equilibrium with the given pressure. A CustomDirichlet on the mobile species raises AttributeError with the chemical potential.", "quantifier": "all concentrations, solubilities, temperatures, materials", "why_tests_cant": "For all values; the class is used through UserExpressions evaluated at quadrature points.", "anchors": ["festim/boundary_conditions/dirichlets/dirichlet_bc.py:BoundaryConditionTheta"]}
{"id": "C55", "title": "Previous-step temperature", "statement": "The times of a run with any temperature are those of the time loop alone, unless the heat solver raises. With an analytical Temperature each accepted step is solved with the temperature at its time, and the previous temperature is that of the previous accepted time, whatever the number of diverged attempts. With a transient HeatTransferProblem the temperatures form an implicit Euler scheme from the initial condition, and the previous temperature already equals the new one when hydrogen transport is solved. With XDMF or steady heat problems the temperature never changes.", "quantifier": "every history of updates", "why_tests_cant": "Temporal ordering on all histories.", "anchors": ["festim/temperature/temperature.py:Temperature.update", "festim/temperature/temperature_solver.py:HeatTransferProblem.update"]}
{"id": "C56", "title": "Steady temperature detection is safe", "statement": "is_steady_state returns True only for expressions which do not depend on t, so in any run a temperature flagged steady is the initial one at every step. Every expression in which the symbol t is written is flagged as unsteady, and so are some that do not depend on t: those whose printed form contains the letter t, such as sqrt(x).", "quantifier": "every expression", "why_tests_cant": "Quantifies over all expressions.", "anchors": ["festim/temperature/temperature.py:Temperature.is_steady_state"]}
{"id": "C57", "title": "Time-dependent expressions are evaluated at the current time", "statement": "During every Newton solve, accepted or not and whatever the number of retries, the data of the hydrogen equations (sources, trap densities, parameters of flux conditions, imposed values) and of the heat equation are taken at the time of the step. The parameters of extrinsic and neutron-induced traps are not: they keep their value at t=0 for the whole run, unless the same expression is also used elsewhere.", "quantifier": "every set of time-dependent data, every history of Newton outcomes", "why_tests_cant": "Completeness of the registration over all data, and the order of updates over all histories.", "anchors": ["festim/helpers.py:update_expressions", "festim/h_transport_problem.py:HTransportProblem.update"]}
{"id": "C58", "title": "Heat balance", "statement": "A transient step of the heat equation has zero residual for the weight of the coordinates exactly when the integral of rho*cp(T)*(T-T_n) is dt times the heat supplied by sources and inward fluxes; in steady state the heat supplied is zero; with constant capacities the heat content changes over a run by the heat supplied. With capacities depending on temperature this is not an energy balance: heating and cooling back to the initial state takes a net heat. With constant properties and fluxes that are imposed or convective (h >= 0) a step has at most one solution.", "quantifier": "all meshes, coordinates, fields, thermal properties, sources, fluxes", "why_tests_cant": "Universal over fields and sequences of steps.", "anchors": ["festim/temperature/temperature_solver.py:HeatTransferProblem.define_variational_problem"]}
{"id": "C59", "title": "Radioactive decay", "statement": "Adding a RadioactiveDecay on all fields adds lambda*c to the equation of each concentration over the volumes of the source and nothing else. If everything decays and nothing is exchanged with the outside, a converged step divides the inventory by exactly 1+lambda*dt, and a run by the product. Adsorbed hydrogen and the subsurface layer of SurfaceKinetics do not decay.", "quantifier": "all parameters, fields, meshes", "why_tests_cant": "Universal over fields, meshes, traps and sequences of steps.", "anchors": ["festim/sources/radioactive_decay.py:RadioactiveDecay"]}
{"id": "C60", "title": "Averages lie between extremes", "statement": "In one DerivedQuantities export the average of a piecewise affine field in a volume (any coordinates, positive measure) lies between MinimumVolume and MaximumVolume, and the average on a surface between the extrema in the volume it bounds; TotalVolume = AverageVolume * measure. On a volume without cells the total is 0, the average raises ZeroDivisionError and the extrema ValueError.", "quantifier": "all meshes, piecewise affine fields, volumes, coordinates", "why_tests_cant": "An inequality between four classes for all meshes and fields.", "anchors": ["festim/exports/derived_quantities/average_volume.py", "festim/exports/derived_quantities/maximum_volume.py"]}
{"id": "C61", "title": "Retention adds up", "statement": "With default trap ids every linear quantity (total or average in a volume or on a surface, point value; any coordinates) of 'retention' is that of 'solute' plus those of all traps. With traps, a cylindrical or spherical total or average of 'retention' raises AttributeError unless an earlier extremum or field export projected the retention, so the order of the quantities decides whether an export works.", "quantifier": "all lists of traps, fields, meshes, quantities, orders of quantities", "why_tests_cant": "Trap lists of any length, all fields, all orders of quantities.", "anchors": ["festim/generic_simulation.py:Simulation.update_post_processing_solutions", "festim/exports/derived_quantities/total_volume.py"]}
{"id": "C62", "title": "Reported fluxes are the fluxes of the equation", "statement": "SurfaceFlux and its cylindrical and spherical versions report the integral over the surface of D (grad c + Q c/(k_B T^2) grad T).n (lambda grad T.n for the temperature), with Jacobian and angles: what enters per unit time according to the equation solved, the opposite of the documented sign. In a steady 1D simulation in cartesian coordinates without sources and traps the values reported at both ends sum to zero and equal the imposed inward flux at an end with flux conditions. For a trap or the retention KeyError is raised although documented (AttributeError for a retention that is not projected in cylindrical and spherical coordinates); TypeError if Q (with Soret) or thermal_cond is missing.", "quantifier": "all fields, temperatures, materials, meshes, angles; all 1D meshes for the balance", "why_tests_cant": "Universal over solutions; the link between the reported number and the weak form is not computed by tests.", "anchors": ["festim/exports/derived_quantities/surface_flux.py:SurfaceFlux.compute"]}
{"id": "C63", "title": "Angular ranges", "statement": "A cylindrical or spherical quantity can be created exactly when the first bound of each range is not below the lower limit and the second not above the upper limit; otherwise ValueError naming an angle out of its interval and the announced interval, which for TotalSurfaceCylindrical and TotalVolumeSpherical (0 and pi) is half of the accepted one. So increasing ranges are accepted exactly when inside the documented interval, and decreasing ones are accepted too and change the sign of the result. Full ranges give 2 pi and 4 pi; values are additive when a range is cut in two. The azimuth of SurfaceFluxSpherical is the polar angle of TotalVolumeSpherical and TotalSurfaceSpherical: the same ranges mean different solid angles.", "quantifier": "all pairs of real bounds, all fields and meshes", "why_tests_cant": "A continuum of ranges; the comparison of conventions spans three classes.", "anchors": ["festim/exports/derived_quantities/surface_flux.py:SurfaceFluxCylindrical", "festim/exports/derived_quantities/surface_flux.py:SurfaceFluxSpherical"]}
{"id": "C64", "title": "Setters accept exactly the documented values, and singletons stand for lists", "statement": "Simulation setters for traps, materials, exports, T and dt accept exactly the documented types and raise TypeError otherwise, leaving the simulation unchanged: None (an empty list for traps and exports, None for materials), one element, a list of valid elements, or a container of the class of the attribute. A single object gives the same result as the one-element list; a number for T or dt (or an expression for T) gives the object built from it. The constructor accepts its arguments exactly when each would be accepted by its setter.", "quantifier": "every value, every heap of list objects, every combination of constructor arguments", "why_tests_cant": "All value shapes, including lists that mix valid and invalid elements and containers of the wrong class.", "anchors": ["festim/generic_simulation.py:Simulation.__init__", "festim/generic_simulation.py:Simulation.traps", "festim/generic_simulation.py:Simulation.materials", "festim/generic_simulation.py:Simulation.exports", "festim/generic_simulation.py:Simulation.T", "festim/generic_simulation.py:Simulation.dt", "festim/exports/exports.py:Exports", "festim/concentration/traps/traps.py:Traps", "festim/materials/materials.py:Materials"]}
{"id": "C65", "title": "Which simulations can be initialised", "statement": "initialise first checks the settings, in order: steady with dt, transient without final_time, transient without dt, no temperature; each raises AttributeError with its own message whatever the rest of the model. A simulation that initialises has a dt iff it is transient, a final time if transient, and a temperature. For default trap ids and materials written as documented, initialise succeeds exactly when a list of explicit conditions holds (fields of sources, boundary and initial conditions known; no clash; geometry, borders, ids and properties of materials consistent; heat data given; exports possible). With chemical_pot and a steady temperature all materials must have S_0 and E_S. Without materials (None or an empty list) it cannot be initialised: AttributeError or IndexError if the rest is in order (on a Mesh1D TypeError or IndexError).", "quantifier": "every simulation object", "why_tests_cant": "The conditions are scattered over ten stages that run in sequence; tests try single faults.", "anchors": ["festim/generic_simulation.py:Simulation.initialise", "festim/generic_simulation.py:Simulation.check_mesh_dim_coords", "festim/materials/materials.py:Materials.check_materials", "festim/h_transport_problem.py:HTransportProblem.initialise"]}
{"id": "C66", "title": "A failed steady solve is reported", "statement": "run() on a steady simulation returns normally iff the solver converged and no export raised; exports are written exactly once, at t = 0, before a divergence is reported as ValueError. An XDMF export in mode 'last' always makes a new steady simulation raise, and a TXTExport with times prevents it from being initialised.", "quantifier": "every initialised steady simulation and outcome", "why_tests_cant": "Order of effects for every list of exports and both outcomes of the solver.", "anchors": ["festim/generic_simulation.py:Simulation.run_steady"]}
{"id": "C67", "title": "Maximum/Minimum on surfaces cannot be used in DerivedQuantities", "statement": "A DerivedQuantities export containing MaximumSurface or MinimumSurface raises TypeError at the first compute. Called by hand with the surface markers of a one-dimensional mesh, their compute method returns the extremum over the whole first cell for the left surface, and reads past the last cell for the right one.", "quantifier": "every list containing such a quantity", "why_tests_cant": "Dispatch over arbitrary lists.", "anchors": ["festim/exports/derived_quantities/maximum_surface.py", "festim/exports/derived_quantities/minimum_surface.py", "festim/exports/derived_quantities/derived_quantities.py:DerivedQuantities.compute"]}
{"id": "C68", "title": "Temperature available at initialisation", "statement": "After initialise(), the temperature used to evaluate solubilities and to convert initial concentrations is the initial temperature, equal to the stored previous temperature, for a prescribed, XDMF or steady heat-equation temperature. For a transient HeatTransferProblem it is still the zero field: only the previous temperature holds the initial condition. A transient HeatTransferProblem without initial condition is refused with AttributeError.", "quantifier": "every kind of temperature, every initial condition and every solver outcome", "why_tests_cant": "Tests check one attribute for each class; that the field read by the other parts of initialise() is the initial temperature for every kind of temperature is a statement about all configurations (and false for one of them).", "anchors": ["festim/temperature/temperature_solver.py:HeatTransferProblem.create_functions", "festim/temperature/temperature.py:Temperature.create_functions", "festim/generic_simulation.py:Simulation.initialise"]}
{"id": "C69", "title": "Implantation boundary concentration", "statement": "ImplantationDirichlet imposes the concentration c for which the flux D*(c-c0)/R_p from the implantation depth to the surface equals the implanted flux phi, where c0 is the concentration at which recombination K_r*c0^2 balances phi plus the dissociation K_d*P; without a recombination coefficient c0=0 and without a dissociation coefficient the dissociation term is absent; a coefficient given without its energy (or a dissociation coefficient without a pressure) raises TypeError.", "quantifier": "all positive D, K_r, R_p and all phi, P, temperatures with phi+K_d*P >= 0", "why_tests_cant": "Tests compare with the same formula at a few points; that the imposed value solves the two physical balance equations for every parameter is not settled by samples.", "anchors": ["festim/boundary_conditions/dirichlets/dc_imp.py: dc_imp, ImplantationDirichlet.create_expression"]}
{"id": "C70", "title": "The unit in the csv header is the unit of the number", "statement": "Under any change of the units of length, time, amount of hydrogen and power, every derived quantity changes by the factor of its unit; this unit is the one written in the header (export_unit) for every quantity in every dimension where it makes sense, except the hydrogen totals over a surface (TotalSurface, TotalSurfaceCylindrical, TotalSurfaceSpherical), whose header has one power of the metre too many.", "quantifier": "every quantity, field, mesh, solution, dimension and change of units", "why_tests_cant": "Tests compare the string with the string of the code; whether it is the unit of the computed integral is a statement about all meshes and fields.", "anchors": ["festim/exports/derived_quantities/total_surface.py:TotalSurface.export_unit", "festim/exports/derived_quantities/total_volume.py:TotalVolume.export_unit", "festim/exports/derived_quantities/surface_flux.py:SurfaceFlux.export_unit", "festim/exports/derived_quantities/average_volume.py:AverageVolume.export_unit", "festim/exports/derived_quantities/adsorbed_hydrogen.py:AdsorbedHydrogen.export_unit"]}
{"id": "C71", "title": "A missing thermal property is reported as TypeError", "statement": "With a HeatTransferProblem, a material without thermal_cond (or heat_capacity, rho when it is transient) makes initialise raise TypeError while building the heat equation; the ValueError 'Missing thermal_cond in materials' announced by the material check cannot be reached.", "quantifier": "every otherwise ready simulation with a heat transfer problem", "why_tests_cant": "The unit test calls check_materials directly; the order of the stages of initialise makes the check unreachable.", "anchors": ["festim/generic_simulation.py:Simulation.initialise", "festim/temperature/temperature_solver.py:HeatTransferProblem.create_functions", "festim/materials/materials.py:Materials.check_missing_properties"]}
{"id": "C72", "title": "From the model to the files", "statement": "Once initialised, a transient run has all it needs: the times of TXT exports are milestones, the times are those of the time loop, and when it returns every export has received exactly the accepted steps in order, each with the solution of its converged solve. Hence the csv file of derived quantities has one row per computed step and the file of a TXTExport without times one column per accepted step.", "quantifier": "every initialised transient simulation and every sequence of Newton outcomes", "why_tests_cant": "Composition of initialise, time loop, adaptivity and exports over unbounded runs.", "anchors": ["festim/generic_simulation.py:Simulation.run_transient", "festim/generic_simulation.py:Simulation.iterate", "festim/exports/exports.py:Exports.write"]}
{"id": "C73", "title": "Which simulations share which lists", "statement": "A change to a list is seen through an attribute of a simulation exactly when the attribute refers to that very list. Simulations created without sources (or boundary_conditions, or initial_conditions) all show one common list, so appending to the list of one of them changes all the others, past and future, that have not assigned the attribute. The lists of the three attributes are different from one another. A list given explicitly is kept by these three attributes, and by traps, materials, exports only if it is already a festim container; otherwise it is copied. A simulation that is the only holder of a non-default list is unaffected by any program that uses neither the simulation nor the list.", "quantifier": "every program made of list creations, constructor calls, assignments and list mutations, including failing ones", "why_tests_cant": "Aliasing shows up only in particular interleavings of several simulations in one process.", "anchors": ["festim/generic_simulation.py:Simulation.__init__", "festim/generic_simulation.py:Simulation.traps", "festim/generic_simulation.py:Simulation.materials", "festim/generic_simulation.py:Simulation.exports"]}
{"id": "C74", "title": "A derived quantity placed directly in exports is ignored", "statement": "A derived quantity (SurfaceFlux, TotalVolume, ...) that is an element of exports rather than of a DerivedQuantities is accepted but never computed: the run ends normally, its data and t stay empty, and the other exports are written exactly as if it were absent.", "quantifier": "every list of exports, every sequence of accepted steps, every run", "why_tests_cant": "The absence of an effect over all runs and all companions in the list.", "anchors": ["festim/exports/exports.py:Exports.write", "festim/exports/exports.py:Exports._validate_export", "festim/exports/exports.py:Exports.initialise_derived_quantities"]}
{"id": "C75", "title": "Bounds on concentration and temperature in one dimension", "statement": "Integrals being exact for polynomials of degree two: on a 1D cartesian mesh with linear elements, without traps, Soret effect and chemical potential, and with sources and boundary fluxes that do not remove hydrogen, a transient step in which every cell satisfies h^2 <= 6 D dt keeps the mobile concentration above any lower bound of the previous one and of the imposed boundary values; with sources and fluxes that do not add, below any upper bound; so over a run. A steady solution satisfies both without condition on h, if D > 0 and a value is imposed at an end. The same holds for a transient step of the temperature with D replaced by thermal_cond/(rho cp), if rho*cp is constant on each cell. The condition is sharp: for any D, h and dt with 6 D dt < h^2 there is a step starting from a non-negative concentration which gives a negative one.", "quantifier": "every mesh, diffusivity field (temperature dependent, any materials), stepsizes, data of the given signs, every run", "why_tests_cant": "A bound for all meshes, data and numbers of steps; the failure appears only in particular combinations of h, D and dt.", "anchors": ["festim/concentration/mobile.py:Mobile.create_diffusion_form", "festim/concentration/mobile.py:Mobile.create_source_form", "festim/temperature/temperature_solver.py:HeatTransferProblem.define_variational_problem"]}
{"id": "C76", "title": "The element type of traps decides whether trapped concentrations are physical", "statement": "If the residual of the trap equation at the solution is itself a function of the space of the trap (for instance if the space is free at each quadrature point), the equation holds at every point, so that the bounds on the occupancy (C45) apply. With the default traps_element_type 'CG' they fail: on two cells of any size, with an empty trap and mobile hydrogen in one end of the domain only, the solved trapped concentration exists, is unique and is strictly negative at the opposite end, for every stepsize, temperature and positive trapping parameters.", "quantifier": "every trap, rates, temperature, cell size and stepsize", "why_tests_cant": "A strict sign for a continuum of parameters: no finite set of cell sizes and stepsizes shows that refinement never removes the undershoot.", "anchors": ["festim/settings.py:Settings.__init__", "festim/concentration/traps/trap.py:Trap.create_trapping_form", "festim/h_transport_problem.py:HTransportProblem.define_function_space"]}
{"id": "C77", "title": "The hydrogen inventory can be read from the derived quantities file", "statement": "AdsorbedHydrogen on a surface reports the adsorbed concentration of the last SurfaceKinetics condition containing the surface (at the first position of the surface in it), times the area of the surface; a TypeError is raised if no condition contains it. The TotalVolume of 'retention' over all the volumes of the mesh sum up to the mobile plus trapped hydrogen, in the coordinates of the mesh and times the angles. In cartesian coordinates, if no surface has kinetics twice, the totals of retention, the adsorbed quantities and lambda_IS times the surface totals of 'solute', all taken from one row, add up to the whole inventory of the problem; two rows around a converged step differ by exactly the stepsize times what sources, flux conditions and adsorption supply.", "quantifier": "every mesh, materials, traps, lists of boundary conditions and volumes, every converged step", "why_tests_cant": "Conservation read off the output relates every export, form and boundary condition at once, for arbitrary meshes and lists.", "anchors": ["festim/exports/derived_quantities/adsorbed_hydrogen.py:AdsorbedHydrogen.compute", "festim/exports/exports.py:Exports.write", "festim/exports/derived_quantities/total_volume.py:TotalVolume.compute", "festim/boundary_conditions/fluxes/surface_kinetics.py:SurfaceKinetics.create_form"]}
{"id": "C78", "title": "The csv file of derived quantities can be read back", "statement": "The file reads back (lines split at commas) as the table that was written exactly when no PointValue has two or more coordinates (or a tuple of one coordinate); otherwise the first line has more cells than the others, one more per comma in its titles. Without units two quantities have the same title exactly when they belong to the same family and have the same field as written, the same subdomain and the same coordinates as written; with units the units must be the same too. So the coordinate system and the angles of a quantity cannot be told from its title. If no title contains a comma and no two titles are the same, the column found under the title of a quantity holds its values.", "quantifier": "every list of quantities over existing fields, ids, coordinates, dimension, table", "why_tests_cant": "Injectivity of titles over all pairs of quantities and all ids, and parsing of arbitrary tables.", "anchors": ["festim/exports/derived_quantities/derived_quantities.py:DerivedQuantities.make_header", "festim/exports/derived_quantities/derived_quantities.py:DerivedQuantities.write", "festim/exports/derived_quantities/point_value.py:PointValue.title", "festim/exports/derived_quantities/surface_flux.py:SurfaceFlux.title"]}
{"id": "C79", "title": "What DerivedQuantities.filter finds", "statement": "filter returns the elements of the list that meet all the given conditions, in order and with repetitions: relative to one of the surfaces, relative to one of the volumes, having literally one of the fields (0, '0' and 'solute' differ), instance of one of the classes or of their subclasses. The result is the object itself when exactly one element is found and a list otherwise. Giving both surfaces and volumes finds nothing. Some call returns a given element alone exactly when no other element has the same field and the same surface or volume and is an instance of its class: so SurfaceFlux('solute', 1) cannot be selected beside HydrogenFlux(1), nor one of two PointValue of the same field.", "quantifier": "every list of derived quantities and every combination of arguments", "why_tests_cant": "The last part quantifies over all possible calls; the others over all lists.", "anchors": ["festim/exports/derived_quantities/derived_quantities.py:DerivedQuantities.filter"]}
{"id": "C80", "title": "Time stepping in floating-point arithmetic", "statement": "With the floats Python really uses, a transient run whose initial stepsize is at most final_time never passes final_time by more than two roundings (final_time*(1+u)^2, u=2^-53), accepted times never decrease and strictly increase for steps longer than 2u*t, the run ends within 1.000001e-5 of final_time at a time where isclose holds, milestones further apart than the largest step are reached within 1.000001e-5, a constant stepsize with final_time=N*h (up to rounding, N<=90000) makes exactly N steps with drift at most u*k*(k+8)*h, and runs terminate when steps stay above 8u*final_time. Not beyond this: Stepsize(0.6, stepsize_change_ratio=2) with final_time 1.7 ends at 1.7000000000000002; a milestone 0.5 is replaced by 0.49999999999999994; a constant stepsize of 1 stalls at 2^53 and the run never ends.", "quantifier": "all monotone roundings with relative error at most 1e-14 (round-to-nearest with 47 or more bits, in particular IEEE doubles), all stepsize settings, final times and sequences of solver outcomes", "why_tests_cant": "Tests compare a few runs with a tolerance; accumulated rounding over any number of steps, any data, and the exceptional data for which the final time is passed are out of reach.", "anchors": ["festim/stepsize.py: Stepsize.adapt, Stepsize.next_milestone", "festim/generic_simulation.py: Simulation.run_transient, Simulation.iterate"]}
{"id": "C81", "title": "Exposure to a gas", "statement": "A DissociationFlux and a RecombinationFlux of order 2 on the same surface balance at exactly one non-negative concentration, the one imposed by SievertsBC with S_0 = sqrt(Kd_0/Kr_0) and E_S = (E_Kd - E_Kr)/2 (also by ImplantationDirichlet with zero flux); hydrogen enters below it and leaves above it. Without sources and traps, a transient step never increases the weighted distance to this uniform concentration, a steady solution is uniform and equal to it, and in one dimension with at least one exposed end a run converges geometrically to it from any initial concentration.", "quantifier": "all positive Kr_0, non-negative Kd_0 and pressures, activation energies, temperatures, meshes, coordinates, diffusivities, stepsizes and initial concentrations; on the line all piecewise affine solutions with non-negative concentrations at the exposed ends", "why_tests_cant": "Equivalence of three different classes for all coefficients and temperatures, and convergence over runs of any length.", "anchors": ["festim/boundary_conditions/fluxes/recombination_flux.py: RecombinationFlux.create_form", "festim/boundary_conditions/fluxes/dissociation_flux.py: DissociationFlux.create_form", "festim/boundary_conditions/dirichlets/sieverts_bc.py: sieverts_law", "festim/boundary_conditions/dirichlets/dc_imp.py: dc_imp", "festim/concentration/mobile.py: Mobile.create_form"]}
{"id": "C82", "title": "The implantation source", "statement": "ImplantationFlux with a positive width is a gaussian source symmetric about imp_depth and decreasing away from it, whose total over the whole line is flux (-flux for a negative width); a zero width raises ZeroDivisionError. A bounded domain [a, b] never receives the whole flux: it receives a positive amount less than flux, only half of it to the right of imp_depth, and the missing part is at most flux*exp(-d^2/(2 width^2)) where d is the distance of imp_depth to the boundary.", "quantifier": "all real fluxes, depths, non-zero widths and intervals", "why_tests_cant": "The existing test compares the expression with itself written again; the integral over a domain is never evaluated.", "anchors": ["festim/sources/source_implantation_flux.py: ImplantationFlux.__init__"]}
{"id": "C83", "title": "Which fields enter each step", "statement": "In a transient run the k-th accepted step uses as previous concentrations and as first guess those found by the step before (in the first step the previous concentrations are the initial condition, but the first guess is not), whatever number of refused attempts came between, and as densities of extrinsic traps those found after the step before. These densities lag: in the step ending at t they have been advanced, with positive steps, by a total time of t minus the first stepsize, so an extrinsic trap holds nothing in the first step of a run, and holds nothing at all in a steady simulation. An extrinsic trap whose density does not decrease and whose occupancy starts in [0, 1] keeps it there, given the lagged density.", "quantifier": "all stepsizes configurations with positive steps, final times, sequences of solver outcomes and fields", "why_tests_cant": "The order of the assignments matters only over several steps with refused attempts; tests look at single methods with mocks.", "anchors": ["festim/h_transport_problem.py: HTransportProblem.update", "festim/h_transport_problem.py: HTransportProblem.update_previous_solutions", "festim/concentration/traps/traps.py: Traps.solve_extrinsic_traps", "festim/concentration/traps/traps.py: Traps.update_extrinsic_traps_density", "festim/generic_simulation.py: Simulation.iterate"]}
{"id": "C84", "title": "Names of the exported files", "statement": "Without a label, XDMFExport labels the fields solute, T, retention and trap numbers as documented and different fields differently; without a file name it writes to label.xdmf in the folder, so that two exports share a file exactly when they export the same field to the same folder. A file name is accepted exactly when it is None or a string with the right ending. An export can be created exactly when folder and file name are of the documented form and a label was given or the field is a string with an automatic label or a file name; with a file name only, an unknown field is noticed when it is first written. Otherwise the error tells why: TypeError for a folder or file name that is not a string, ValueError for the ending, AttributeError if no label can be found.", "quantifier": "all fields, labels, folders and file names (any strings or other objects)", "why_tests_cant": "Collisions of names over all strings cannot be enumerated.", "anchors": ["festim/exports/xdmf_export.py: XDMFExport.__init__", "festim/exports/xdmf_export.py: XDMFExport.define_xdmf_file", "festim/exports/txt_export.py: TXTExport.filename", "festim/exports/derived_quantities/derived_quantities.py: DerivedQuantities.filename"]}
{"id": "C85", "title": "Materials of the traps", "statement": "A trap accepts material names and Material objects, alone or in a list, and raises TypeError for anything else (in particular for the ids shown in its documentation). On initialise each name becomes the first material with that name in the simulation, in order; this fails exactly when a name is unknown or two entries designate the same object. Afterwards the trap keeps these objects: initialising again with other materials changes nothing, and if the new materials no longer contain one of them, the steady equations of the trap are wrong there.", "quantifier": "all lists of materials, all arguments, repeated initialisations", "why_tests_cant": "Needs lists of any length and two initialisations of the same object.", "anchors": ["festim/concentration/traps/trap.py: Trap.materials", "festim/concentration/traps/trap.py: Trap.make_materials", "festim/concentration/traps/traps.py: Traps.make_traps_materials", "festim/materials/materials.py: Materials.find_material"]}
{"id": "C86", "title": "Exported trap density", "statement": "The field written by TrapDensityXDMF has the total amount of the first density of the trap over all its materials, and pointwise equals that first density in the materials of the trap and zero elsewhere. So it is the density of the trap if the trap has a single density; with one density per material it is right only in the materials whose density equals the first one.", "quantifier": "all meshes, traps, materials and densities", "why_tests_cant": "The test uses one material and one density.", "anchors": ["festim/exports/trap_density_xdmf.py: TrapDensityXDMF.write"]}
{"id": "C87", "title": "Times and labels of XDMF files", "statement": "From a file with checkpoints written at times t1, t2, ... extract_xdmf_times returns exactly these times in order (with repetitions) and extract_xdmf_labels returns each label once; TemperatureFromXDMF is accepted exactly when its label is in the file, and InitialCondition from a file exactly when a label and a time step are given; otherwise a ValueError names what is missing.", "quantifier": "all numbers of checkpoints, times, labels and mesh elements, and all further grids in the file", "why_tests_cant": "Files of any length and content.", "anchors": ["festim/helpers.py: extract_xdmf_times", "festim/helpers.py: extract_xdmf_labels", "festim/temperature/temperature_from_xdmf.py: TemperatureFromXDMF.__init__", "festim/initial_condition.py: InitialCondition.__init__"]}
{"id": "C88", "title": "Energies in kJ/mol", "statement": "Giving kJmol_to_eV(E) as an activation energy yields exactly the rate k exp(-1000 E/(R T)) of an Arrhenius law with the gas constant; the conversion is linear and increasing, and 96.485 kJ/mol is 1 eV up to 1e-5.", "quantifier": "all energies, temperatures and prefactors", "why_tests_cant": "An identity for all reals.", "anchors": ["festim/helpers.py: kJmol_to_eV", "festim/__init__.py: R", "festim/__init__.py: k_B"]}
{"id": "C89", "title": "Steady permeation through layers", "statement": "In a steady one-dimensional simulation without sources the flux is the same through every cell and equals what flux conditions bring in; the concentration (theta with the chemical potential) at each node of the mesh is exactly the one of resistances in series (thickness over mean conductivity), whatever the mesh and the traps, which do not change it as long as nothing is trapped outside their materials (see C111). SurfaceFlux reports the difference of the imposed values over the total resistance on both sides, with opposite signs; for one material between a SievertsBC and vacuum this is Richardson's law D S sqrt(p) / thickness, with and without the chemical potential. The steady temperature obeys the same law with thermal conductivities.", "quantifier": "all numbers and lengths of cells, materials, temperatures, traps, flux conditions and imposed values", "why_tests_cant": "Tests compare one or two meshes with an analytic profile to a tolerance.", "anchors": ["festim/concentration/mobile.py: Mobile.create_diffusion_form", "festim/concentration/theta.py: Theta", "festim/boundary_conditions/dirichlets/sieverts_bc.py: SievertsBC", "festim/exports/derived_quantities/surface_flux.py: SurfaceFlux.compute", "festim/temperature/temperature_solver.py: HeatTransferProblem.define_variational_problem", "festim/concentration/traps/trap.py: Trap.create_trapping_form"]}
{"id": "C90", "title": "Linear problems have exactly one solution", "statement": "In one dimension, without traps, with imposed, dissociation and mass fluxes, given sources, radioactive decay and Dirichlet conditions (with the chemical potential: Sieverts materials), the discrete problem of every step has exactly one solution, in steady state if a Dirichlet condition or a mass flux fixes the level. So for given initial values and data there is exactly one sequence of fields a simulation can produce. The same holds for the temperature with properties which do not depend on it, imposed and convective fluxes.", "quantifier": "all numbers and lengths of cells, quadrature rules with non-negative weights, materials, temperatures, sources, flux conditions, imposed values, stepsizes and previous fields", "why_tests_cant": "Solvability for all data is not observable by running examples; other properties assume a solution.", "anchors": ["festim/h_transport_problem.py: HTransportProblem.define_variational_problem", "festim/h_transport_problem.py: HTransportProblem.solve_once", "festim/concentration/mobile.py: Mobile.create_form", "festim/boundary_conditions/fluxes/mass_flux.py: MassFlux", "festim/sources/radioactive_decay.py: RadioactiveDecay", "festim/temperature/temperature_solver.py: HeatTransferProblem.define_variational_problem"]}
{"id": "C91", "title": "Transient simulations tend to the steady one", "statement": "In one dimension, for the linear problems of C90 with data which do not change in time and a Dirichlet condition or a mass flux (convective flux), a transient simulation started from any initial values, with any stepsizes bounded below, tends at every node to the field computed with transient=False and the same data; the distance is bounded by a geometric sequence whose rate depends neither on the initial values nor on the choice of the stepsizes. The same holds for the temperature.", "quantifier": "all meshes of an interval, materials, sources (decay included), flux conditions, imposed values, initial fields and sequences of stepsizes not below a positive number", "why_tests_cant": "A statement about the limit of infinitely many steps; a test stops after finitely many, for one set of data.", "anchors": ["festim/generic_simulation.py: Simulation.run_transient", "festim/generic_simulation.py: Simulation.run_steady", "festim/h_transport_problem.py: HTransportProblem.update", "festim/concentration/mobile.py: Mobile.create_diffusion_form", "festim/temperature/temperature_solver.py: HeatTransferProblem.define_variational_problem"]}
{"id": "C92", "title": "A second call of run", "statement": "After a transient run which has returned, calling run() again without initialise solves nothing if final_time is unchanged. If final_time has been increased, the first step of the second call goes at most to the old final_time: its length is the part which was left over, zero when the first run ended exactly there; and if it is zero (or negative), no later step has a positive length, so that the second call never returns, whatever the solver answers.", "quantifier": "all stepsizes, final times, completed first runs and answers of the solver during the second run", "why_tests_cant": "That a loop never ends cannot be observed by running it; a test of one configuration does not cover the others.", "anchors": ["festim/generic_simulation.py: Simulation.run", "festim/generic_simulation.py: Simulation.run_transient", "festim/generic_simulation.py: Simulation.iterate", "festim/stepsize.py: Stepsize.adapt"]}
{"id": "C93", "title": "Which material properties matter, and which are announced as ignored", "statement": "The hydrogen equations (traps, sources, flux conditions included) depend on the ids, D_0 and E_D of the materials, on Q only with the Soret effect, and on S_0, E_S and the solubility law only with chemical_pot; the heat equation depends on the ids and thermal_cond and, in transient mode, on the product rho*heat_capacity only. With a prescribed temperature initialise warns once per material and per given rho, heat_capacity and thermal_cond, and never with a HeatTransferProblem; the exports play no role (the material check itself, given the list of derived quantities, would stay silent about thermal_cond when one of them is a SurfaceFlux of T; initialise hands over an empty list). The warning is wrong for thermal_cond when a thermal flux is exported (the flux is proportional to it); properties ignored in other cases (rho in a steady heat problem, solubilities without chemical_pot) are ignored in silence.", "quantifier": "all problems, materials and edits of materials", "why_tests_cant": "Independence of a parameter is a statement about all its values; tests change it once at most.", "anchors": ["festim/materials/materials.py: Materials.check_for_unused_properties", "festim/materials/materials.py: Materials.check_materials", "festim/generic_simulation.py: Simulation.initialise", "festim/h_transport_problem.py: HTransportProblem.define_variational_problem", "festim/temperature/temperature_solver.py: HeatTransferProblem.define_variational_problem", "festim/exports/derived_quantities/surface_flux.py: SurfaceFlux.prop"]}
{"id": "C94", "title": "Which solver parameters are used", "statement": "After initialise the hydrogen problem is solved with the tolerances, the number of iterations and the linear solver currently in the settings, and an extrinsic trap (transient) with its own current ones, whatever solvers were assigned before. A HeatTransferProblem keeps a solver assigned by the user; otherwise it keeps the options of the first initialise, and later changes of its tolerances are ignored. Only a NewtonSolver or None can be assigned; anything else raises TypeError and changes nothing. Failures to converge raise for the heat problem and the extrinsic traps, not for the hydrogen problem.", "quantifier": "all sequences of assignments and initialisations", "why_tests_cant": "The outcome depends on the history of assignments and initialisations; tests look at one initialisation.", "anchors": ["festim/h_transport_problem.py: HTransportProblem.define_newton_solver", "festim/temperature/temperature_solver.py: HeatTransferProblem.create_functions, define_newton_solver", "festim/concentration/traps/extrinsic_trap.py: ExtrinsicTrapBase.define_newton_solver", "festim/concentration/traps/traps.py: Traps.define_newton_solver_extrinsic_traps", "festim/generic_simulation.py: Simulation.initialise"]}
{"id": "C95", "title": "What one nonlinear solve returns", "statement": "When a solve of the hydrogen problem (or the heat problem) reports convergence, either no iteration was made and the field is exactly what it was, or every Dirichlet value is attained exactly, the last condition of the list winning where several apply, and every other equation has a residual below max(atol, rtol * initial residual). A failed solve has used all allowed iterations. A field whose residual is already below the absolute tolerance is accepted as it is, so that new boundary values closer than that to the old ones are never applied. A linear problem converges in at most one iteration from any starting field; for the linear hydrogen and heat problems on a line what is then left is the unique solution of the discrete weak problem.", "quantifier": "all residuals, Jacobians, lists of boundary conditions, tolerances and starting fields; all linear problems on a line", "why_tests_cant": "A test can compare one result with an expected field; it cannot tell what holds after every solve which reports convergence, nor show that a linear problem never needs a second iteration.", "anchors": ["festim/nonlinear_problem.py: Problem, Problem.F, Problem.J", "festim/h_transport_problem.py: HTransportProblem.solve_once", "festim/temperature/temperature_solver.py: HeatTransferProblem.create_functions, update"]}
{"id": "C96", "title": "Transient simulations with their solver", "statement": "In any transient simulation without extrinsic traps each accepted step was solved with the field before it as previous solution and as initial guess, and the field it leaves either is that guess (accepted without iteration) or attains all imposed values of its time exactly and solves its equations up to the tolerances. A linear transient simulation on a line always succeeds: if the stepsize cannot get below eps, run returns after at most final_time/eps solves, without an exception and without refusing a step; the last time is final_time (up to its tolerance), each time is the one before plus the stepsize in the equations, and each field is the solution of the discrete equations of its time, stepsize and previous field, unless it was accepted unchanged because its residual was below the tolerances already.", "quantifier": "all stepsize settings (constant, adaptive, milestones, max_stepsize), final times, tolerances, initial fields, time-dependent data; all linear problems on a line for the second part", "why_tests_cant": "It is a statement on complete runs of every length with the solver inside the loop; a test runs one simulation.", "anchors": ["festim/generic_simulation.py: Simulation.run_transient, iterate", "festim/h_transport_problem.py: HTransportProblem.update, solve_once, update_previous_solutions", "festim/nonlinear_problem.py: Problem", "festim/stepsize.py: Stepsize.adapt"]}
{"id": "C97", "title": "Derived quantities announced as unsuitable for the mesh type", "statement": "If initialise gives no warning about a derived quantity, the number written is what its name says for the body described by the mesh: volume and surface integrals, averages and fluxes are weighted with r in cylindrical meshes and r^2 in spherical ones (AverageSurface in a spherical mesh: provided the surface lies at one radius; with one marker on both surfaces of a hollow sphere it is silently wrong), extrema and point values are the extrema and point values. Conversely no class is warned about in vain: for each one there is a mesh of that type and a concentration for which the number written is not what the name says.", "quantifier": "all meshes, fields, material properties, derived quantities with any angles, the three mesh types", "why_tests_cant": "The tests check that a warning appears for some pairs, not that the silent ones compute the right thing on every mesh and field.", "anchors": ["festim/generic_simulation.py: Simulation.initialise", "festim/exports/derived_quantities/derived_quantity.py: DerivedQuantity.allowed_meshes", "festim/exports/derived_quantities/surface_flux.py: SurfaceFlux.allowed_meshes", "festim/exports/derived_quantities/average_surface.py: AverageSurface.allowed_meshes"]}
{"id": "C98", "title": "Parameters of a trap given as lists", "statement": "With k_0, E_k, p_0, E_p, density given as lists as long as the list of materials and without None, each material of the trap gets the entries at its own position, in the equation of the trap and in the one of the mobile hydrogen. The lengths are not checked: the equations can be written exactly when the four parameters are numbers and there is a density, or when they are lists at least as long as the materials and there are at least as many densities (None not counted). With numbers and a list of densities the first density is used everywhere. A None in the list of densities moves all later densities to the material before. Otherwise TypeError if numbers and lists are mixed, IndexError if a list is too short.", "quantifier": "all traps, numbers of materials, list lengths and positions of None", "why_tests_cant": "Tests use lists of length two of equal length.", "anchors": ["festim/concentration/traps/trap.py: Trap.make_density", "festim/concentration/traps/trap.py: Trap.create_trapping_form", "festim/concentration/mobile.py: Mobile.create_diffusion_form"]}
{"id": "C99", "title": "Initialising a simulation again", "statement": "If a transient simulation has run and is then made steady and initialised again with the same objects, the steady equations mix two times: sources, trap densities and the parameters of user-defined conditions and of surface kinetics have the values of the last time step of the transient run, all other flux and imposed conditions those of time 0. A first initialisation is not concerned (everything is taken at time 0), nor is a transient run (each step uses the time of the step whatever was left by an earlier run). A transient heat transfer problem whose initial condition is a number or an expression can be initialised once only: every later call raises, because the value of the condition has been overwritten; with an XDMF file every call succeeds and gives the same temperature.", "quantifier": "all hydrogen problems with time-dependent data, all runs and outcomes of the solver, any number of initialisations", "why_tests_cant": "Tests build a new simulation each time and initialise it once.", "anchors": ["festim/h_transport_problem.py: HTransportProblem.initialise", "festim/sources/source.py: Source", "festim/concentration/traps/trap.py: Trap.make_density", "festim/boundary_conditions/fluxes/flux_custom.py: CustomFlux.create_form", "festim/boundary_conditions/dirichlets/dirichlet_bc.py: DirichletBC.create_expression", "festim/temperature/temperature_solver.py: HeatTransferProblem.create_functions"]}
{"id": "C100", "title": "A small enough stepsize always works", "statement": "In a transient simulation, whatever the mesh, dimension, coordinates, elements, traps, sources, temperature, Soret effect, smooth flux conditions and surface kinetics (chemical potential conservation only with Sieverts materials), there is for each time, previous solution and initial guess a stepsize below which Newton's method converges in at most two iterations, and below which the discrete equations have exactly one solution in any given large ball. Since a refused attempt only divides the stepsize (time, data, previous solution and guess stay), the retries of a step of an adaptive simulation always come to an end: the step is accepted, or ValueError 'stepsize reached minimal value' is raised, and the latter only if dt_min times the change ratio exceeds that bound. With dt_min = 0 a simulation never raises for non-convergence and never hangs: it returns or accepts as many steps as wanted.", "quantifier": "all meshes, bases, problems, boundary conditions, guesses, tolerances with positive absolute tolerance, adaptive settings with ratio above 1 and all reachable states", "why_tests_cant": "That some stepsize works for every nonlinear problem is an existence statement over a continuum; a test observes one stepsize on one problem.", "anchors": ["festim/h_transport_problem.py: HTransportProblem.define_function_space", "festim/h_transport_problem.py: HTransportProblem.initialise_concentrations", "festim/h_transport_problem.py: HTransportProblem.update", "festim/h_transport_problem.py: HTransportProblem.solve_once", "festim/stepsize.py: Stepsize.adapt"]}
{"id": "C101", "title": "Simulations converge to the solution of the diffusion equation", "statement": "In a 1D transient simulation without traps, compare the computed nodal values with any function w(t, x) that solves the diffusion equation in the ordinary sense (diffusivities, solubilities and decay constants by layer, continuous flux at interfaces, the same sources and boundary conditions) and is smooth in each cell. The distance to w grows in each step by at most the stepsize times a constant times (stepsize, plus square of the cell size, plus error on the source), so at any time it is bounded by the initial error plus O(stepsize + cell size squared), with explicit constants, for all meshes and variable stepsizes; it goes to zero when the stepsizes, the cells and the initial error do. Solutions affine in time and quadratic in space are reproduced exactly. For the whole program, with adaptive stepsizes and the tolerances of the Newton solver, the same holds up to the absolute tolerance per step. Integrals over volumes (TotalVolume) are as accurate, and the same holds for the temperature of a heat transfer problem with constant properties.", "quantifier": "all 1D meshes, quadrature rules exact for degree 2, layers, temperatures compatible with a linear problem, sources, decay constants, Dirichlet, flux and mass-transfer conditions, stepsize settings, tolerances, initial conditions and exact solutions", "why_tests_cant": "Convergence is a limit over infinitely many meshes and stepsizes; the method-of-manufactured-solutions tests observe one mesh and one stepsize.", "anchors": ["festim/h_transport_problem.py: HTransportProblem.define_variational_problem", "festim/h_transport_problem.py: HTransportProblem.update", "festim/concentration/mobile.py: Mobile.create_diffusion_form", "festim/concentration/mobile.py: Mobile.create_source_form", "festim/temperature/temperature_solver.py: HeatTransferProblem.define_variational_problem", "festim/generic_simulation.py: Simulation.run_transient"]}
{"id": "C102", "title": "Simulations with traps converge to the solution of the McNabb-Foster equations", "statement": "In a 1D transient simulation with any number of traps (rates and densities by material, any temperature field, continuous or discontinuous elements for the trapped concentrations), compare the computed mobile and trapped concentrations with any functions that solve the diffusion and trapping equations dct/dt = k c (n - ct) - p ct in the ordinary sense and are smooth in each cell. If the stepsize is small compared to the time of trapping, the error on all the concentrations together at any time is at most an exponential factor times (initial error plus a constant times (stepsize, plus square of the cell size, plus error on the source)), with explicit constants, for all meshes and variable stepsizes; it goes to zero when the stepsizes, the cells and the initial error do, uniformly in the mesh. The bound uses a bound of the computed density of empty traps, which can be read from the results. Solutions affine in time and in each cell are reproduced exactly.", "quantifier": "all 1D meshes, quadrature rules exact for degree 2, layers, numbers of traps, rates, densities depending on time and position, sources of mobile species, decay constants, Dirichlet, flux and mass-transfer conditions, stepsizes, initial conditions and exact solutions", "why_tests_cant": "Convergence is a limit over infinitely many meshes and stepsizes, of a nonlinear coupled system; the method-of-manufactured-solutions tests observe one mesh and one stepsize.", "anchors": ["festim/h_transport_problem.py: HTransportProblem.define_variational_problem", "festim/concentration/mobile.py: Mobile.create_diffusion_form", "festim/concentration/traps/trap.py: Trap.create_trapping_form", "festim/concentration/traps/traps.py: Traps.create_forms"]}
{"id": "C103", "title": "Accuracy of steady 1D simulations and of the surface fluxes they report", "statement": "In a steady 1D simulation without traps, compare the computed concentrations with any function that solves the steady diffusion equation d/dx(K dc/dx) + f = r c in the ordinary sense in each layer, with continuous flux and the same boundary conditions. At every node the error is at most (resistance of the layers, plus that of the surface if no end has an imposed concentration) times length times (square of the cell size times the smoothness of the solution, plus the error on the source); it vanishes when the sources are constant in each cell and there is no decay, whatever the mesh, and goes to zero with the cell size uniformly in the mesh. The hydrogen flux reported by SurfaceFlux at an end differs from the exact one by a second-order term plus at most K |c''| h where h is the size of the cell at this end; this first order is sharp: with a uniform source the reported flux is off by exactly half of what is produced in that cell. The same bound holds for the steady temperature when the conductivities do not depend on it.", "quantifier": "all 1D meshes, quadrature rules exact for degree 2, layers with or without conservation of the chemical potential, sources, decay constants, Dirichlet, flux and mass-transfer conditions and exact solutions", "why_tests_cant": "An error bound for all meshes and all solutions; tests compare one mesh with one manufactured solution, and the offset of the reported flux is hidden by tolerances.", "anchors": ["festim/h_transport_problem.py: HTransportProblem.define_variational_problem", "festim/concentration/mobile.py: Mobile.create_form", "festim/exports/derived_quantities/surface_flux.py: SurfaceFlux.compute", "festim/temperature/temperature_solver.py: HeatTransferProblem.define_variational_problem"]}
{"id": "C104", "title": "Accuracy in temperature gradients and with computed temperatures", "statement": "In a 1D simulation without traps in a temperature gradient, so that the diffusivity varies inside the cells, compare the computed concentrations with any function that solves c_t = d/dx(D(x,t) dc/dx) + f - lambda c in the ordinary sense in each layer, with continuous flux and the same boundary conditions. In steady state the error at every node is at most (resistance of the layers, plus that of the surface if no end has an imposed concentration) times (length times cell size squared times the smoothness, plus error on the source, plus slope of c times error on the diffusivity at the quadrature points, plus cell size squared times the derivatives of D and c). In a transient simulation the error in the root mean square sense is the initial one, plus elapsed time times (stepsize, cell size squared, error on the source), plus a term of second order in the cell size and first order in the error on the diffusivity growing as the square root of the time. The flux reported by SurfaceFlux is accurate to first order. When the temperature is itself computed from the steady heat equation on the same mesh, the concentrations remain accurate to second order in the cell size with respect to the exact coupled solution.", "quantifier": "all 1D meshes, quadrature rules exact for degree 2, materials, Arrhenius diffusivities, temperature profiles given or computed, sources, decay constants, Dirichlet, flux and mass-transfer conditions, stepsizes and exact solutions", "why_tests_cant": "An error bound for all meshes, profiles and solutions; tests compare one mesh with one manufactured solution, mostly at uniform temperature.", "anchors": ["festim/h_transport_problem.py: HTransportProblem.define_variational_problem", "festim/concentration/mobile.py: Mobile.create_diffusion_form", "festim/temperature/temperature_solver.py: HeatTransferProblem.define_variational_problem", "festim/exports/derived_quantities/surface_flux.py: SurfaceFlux.compute"]}
{"id": "C105", "title": "Accuracy and best approximation in any dimension", "statement": "On any cartesian mesh, in 1D, 2D or 3D, with any elements, in simulations without traps, Soret effect or chemical potential: (a) compare the computed concentrations of a transient simulation with any other fields that take the same imposed values. If these fail to satisfy the weak diffusion equation by at most eps times the L2 norm plus eta times the energy norm of the test function, and the solver leaves a residual at most rho, then the L2 distance is at most the sum of stepsize times (eps + rho), plus the square root of the initial distance squared and half the sum of stepsize times eta squared; recombination and every other flux that decreases with the concentration are allowed. (b) A steady simulation with flux, mass-transfer or convective conditions is, among all fields the elements can represent with the same imposed values, the closest in energy to any field satisfying the weak equation; hence refining the mesh, or raising the degree of the elements, never increases the error in energy. (c) With recombination fluxes, the gradient of the error of a steady simulation is at most the defect of the field it is compared with. (d) The L2 error of a transient simulation with respect to an exact weak solution is at most the error of the elliptic projection, plus the initial distance to it, plus elapsed time times (rate of change of the projection error, half the stepsize times the second time derivative, solver residual). (e) The same as (a) holds for transient heat transfer with constant properties, in the norm weighted by the heat capacity.", "quantifier": "all dimensions, meshes with non-negative quadrature weights, finite element spaces, materials, temperatures, sources, radioactive decay constants, boundary conditions with fluxes decreasing in the concentration, sequences of stepsizes and fields compared with", "why_tests_cant": "The bounds hold for every mesh, space and solution; tests compare single meshes with single manufactured solutions up to a tolerance.", "anchors": ["festim/h_transport_problem.py: HTransportProblem.define_variational_problem", "festim/concentration/mobile.py: Mobile.create_diffusion_form", "festim/concentration/mobile.py: Mobile.create_source_form", "festim/concentration/mobile.py: Mobile.create_fluxes_form", "festim/temperature/temperature_solver.py: HeatTransferProblem.define_variational_problem"]}
{"id": "C106", "title": "The equations do not depend on how the problem is written", "statement": "(a) Write a hydrogen problem in other units of length, time and amount of hydrogen (mesh, diffusivities, solubilities, trap rates and densities, sources, decay constants, every kind of flux condition, surface kinetics, stepsize and fields all converted): every residual is multiplied by the same number, so a step is solved in the new units exactly when it is in the old ones, and what cannot be written fails with the same exception. Exception: SurfaceKinetics with conservation of the chemical potential, where whether a step is solved depends on the units. (b) The same for the heat equation. (c) The order of materials, sources, boundary conditions and traps does not matter. (d) Nor does the numbering of volumes and surfaces; a volume or surface may be cut into several ones with the same material, sources and fluxes (a surface with SurfaceKinetics may only be renumbered). (e) Two traps with the same kinetics in the same materials act as one trap with the sum of their densities, whose content is the sum of theirs. (f) Conversely a trap may be shared between two in any proportions, together with its content. (g) A trap without sites and without content changes nothing.", "quantifier": "all meshes, elements, coordinate systems, materials, traps, sources, boundary conditions, steady or transient, all fields and test functions", "why_tests_cant": "A statement about pairs of problems related by an arbitrary transformation; tests compare single problems with analytical solutions.", "anchors": ["festim/h_transport_problem.py: HTransportProblem.define_variational_problem", "festim/concentration/mobile.py: Mobile.create_diffusion_form", "festim/concentration/mobile.py: Mobile.create_source_form", "festim/concentration/mobile.py: Mobile.create_fluxes_form", "festim/concentration/traps/trap.py: Trap.create_trapping_form", "festim/concentration/traps/traps.py: Traps.create_forms", "festim/boundary_conditions/fluxes/surface_kinetics.py: SurfaceKinetics.create_form", "festim/temperature/temperature_solver.py: HeatTransferProblem.define_variational_problem"]}
{"id": "C107", "title": "Half of a symmetric domain, a section of a long one", "statement": "Users simulate half of a symmetric component, or a section of a long one, and leave the cutting plane without boundary condition. That is legitimate. (a) Half slab in one dimension with the piecewise affine functions FESTIM uses: with symmetric materials, traps, sources and temperature, the same fluxes or an imposed concentration at both ends and nothing in the middle of the half, a state of the half satisfies its equations exactly when its symmetric completion satisfies those of the slab (both can be written or neither). (b) The same for any domain and its image in a mirror, in any dimension and element whose functions restrict to the half and extend from it, surface kinetics included, cylindrical and spherical coordinates included if the mirror leaves the radius unchanged. (c) A plane section of a prism of any height: the equations of the section hold exactly when those of the prism do. (d) A problem in cartesian coordinates turned or reflected as a whole has the same residuals. (e) In general: if each point of a mesh lies over a point of another one with the same markers and its test functions gather to those of the other, residuals above and below are equal, for hydrogen and for the heat equation.", "quantifier": "all meshes, elements, materials, traps, sources, flux conditions including surface kinetics, Soret or not, chemical potential or not, steady or transient, all fields and test functions", "why_tests_cant": "A statement about pairs of problems on different domains, for every problem; tests compare single problems with analytical solutions.", "anchors": ["festim/h_transport_problem.py: HTransportProblem.define_variational_problem", "festim/concentration/mobile.py: Mobile.create_diffusion_form", "festim/concentration/mobile.py: Mobile.create_source_form", "festim/concentration/mobile.py: Mobile.create_fluxes_form", "festim/concentration/traps/trap.py: Trap.create_trapping_form", "festim/concentration/traps/traps.py: Traps.create_forms", "festim/boundary_conditions/fluxes/surface_kinetics.py: SurfaceKinetics.create_form", "festim/meshing/mesh_1d.py: Mesh1D.define_markers", "festim/boundary_conditions/fluxes/flux_bc.py: FluxBC.create_form"]}
{"id": "C108", "title": "Superposition, comparison and reciprocity", "statement": "Without traps and with fluxes that are given, proportional to the concentration or linear in its difference to an outside value (FluxBC, DissociationFlux, MassFlux, RecombinationFlux of order 1, sources, radioactive decay): (a) superposition holds: if one state satisfies the equations with some sources, fluxes and previous state and another one does with others, any linear combination satisfies them with the combined data, on any mesh and in all coordinates, Soret effect or not, chemical potential or not if the materials follow Sieverts' law. (b) On a line this holds for whole simulations: the run for combined data, conditions and initial state is the combination of the runs. (c) On a line, for any flux law and given sources, with the chemical potential not conserved and time steps not too small for the cells (square of the cell size at most 6 D dt, as in C75), a run which starts with at least as much, has at least the sources, the inward fluxes and the imposed values of another one, has at least its concentration everywhere and always; the steady state likewise. (d) The heat equation with constant properties is linear in the same sense, with given and convective fluxes. (e) In cartesian coordinates the response to a source, weighted by another source, equals the response to the latter weighted by the former. With recombination of order 2 superposition fails: doubling the incident flux does not double the concentration.", "quantifier": "all meshes, materials, temperatures, sources, linear flux conditions, coefficients of the combination, numbers of steps; comparison for all flux laws", "why_tests_cant": "A relation between three simulations (or two) for all data; tests run single ones.", "anchors": ["festim/h_transport_problem.py: HTransportProblem.define_variational_problem", "festim/concentration/mobile.py: Mobile.create_diffusion_form", "festim/concentration/mobile.py: Mobile.create_source_form", "festim/concentration/mobile.py: Mobile.create_fluxes_form", "festim/concentration/traps/trap.py: Trap.create_trapping_form", "festim/concentration/traps/traps.py: Traps.create_forms", "festim/boundary_conditions/fluxes/surface_kinetics.py: SurfaceKinetics.create_form", "festim/boundary_conditions/fluxes/flux_bc.py: FluxBC.create_form", "festim/temperature/temperature_solver.py: HeatTransferProblem.define_variational_problem"]}
{"id": "C109", "title": "Cylindrical and spherical simulations are those of bodies of revolution", "statement": "Users choose type='cylindrical' (r, or r and z) or type='spherical' (r) in order to simulate a three-dimensional body by its section. That is what they get: take the body swept by the section, in cartesian coordinates, with the same materials, traps, sources and fluxes at every position around the axis or centre. (a) For a section that does not contain the axis (r is nonzero) and without surface kinetics, a state satisfies the cylindrical or spherical equations of hydrogen transport exactly when, turned around, it satisfies the cartesian equations of the body: for every test function of the body, symmetric or not, the residual of the body is that of the section for r (r squared) times the sum of the test function over the positions; the same for the heat equation. (b) TotalVolumeCylindrical/Spherical, TotalSurfaceCylindrical/Spherical and SurfaceFluxCylindrical/Spherical are the total and the flux that TotalVolume, TotalSurface and SurfaceFlux give on the body, if the angle ranges of the quantity are those of the body (for the flux the classes' own factor); AverageVolumeCylindrical/Spherical and AverageSurfaceCylindrical are the averages over the body whatever its angles; Soret contribution included.", "quantifier": "all sections, materials, traps, sources, fluxes, temperatures, Soret or not, chemical potential or not, steady or transient, all positions and angles around the axis, all states and test functions, all volumes and surfaces", "why_tests_cant": "A statement about pairs of problems of different dimension, for all of them; tests compare single cylindrical problems with analytical solutions.", "anchors": ["festim/concentration/mobile.py: Mobile.create_diffusion_form", "festim/concentration/mobile.py: Mobile.create_fluxes_form", "festim/concentration/traps/trap.py: Trap.create_trapping_form", "festim/h_transport_problem.py: HTransportProblem.define_variational_problem", "festim/temperature/temperature_solver.py: HeatTransferProblem.define_variational_problem", "festim/exports/derived_quantities/total_volume.py: TotalVolumeCylindrical, TotalVolumeSpherical", "festim/exports/derived_quantities/total_surface.py: TotalSurfaceCylindrical, TotalSurfaceSpherical", "festim/exports/derived_quantities/surface_flux.py: SurfaceFluxCylindrical, SurfaceFluxSpherical", "festim/exports/derived_quantities/average_volume.py: AverageVolumeCylindrical, AverageVolumeSpherical", "festim/exports/derived_quantities/average_surface.py: AverageSurfaceCylindrical"]}
{"id": "C110", "title": "Which values of sources are accepted, when others are noticed, and which follow the time", "statement": "Source(value, volume, field) never raises. (a) If the fields of the sources are acceptable (C34), initialise writes the source terms of all equations exactly when every source is usable: its value is an int, a float, a sympy expression, a fenics Expression, UserExpression or Function, or it is a RadioactiveDecay whose field is not 'T'. Each equation then contains the value of every source which targets it, in the order of the list, and a RadioactiveDecay contributes the decay of the concentration of that very equation although one object is shared by all equations. If some source is not usable (value a fenics.Constant, a string, None; a RadioactiveDecay of the temperature) initialise raises AttributeError; no exception tells which type is expected. (b) The sources of hydrogen whose time is updated during the run are exactly those given as sympy expression, Expression or UserExpression; those of the temperature are all updated. (c) A decay constant is accepted exactly when it is a positive int or float (True counts as 1); TypeError for anything which is not a number, ValueError for other numbers.", "quantifier": "all lists of sources with any fields and kinds of values, any number of traps, with or without heat equation, any earlier state of the objects", "why_tests_cant": "All combinations of kinds of values, fields and equations, with shared mutable objects; tests create single sources.", "anchors": ["festim/sources/source.py: Source.__init__", "festim/sources/radioactive_decay.py: RadioactiveDecay", "festim/concentration/mobile.py: Mobile.create_source_form", "festim/concentration/traps/trap.py: Trap.create_source_form", "festim/temperature/temperature_solver.py: HeatTransferProblem.define_variational_problem", "festim/generic_simulation.py: Simulation.attribute_source_terms"]}
{"id": "C111", "title": "Traps in a part of the domain change the steady flux with the default elements", "statement": "In a steady simulation without trap sources, if the test functions can be cut off outside the materials of each trap (traps_element_type 'DG', or traps defined in every material), the equations hold exactly when those of the same simulation without traps hold and each trap satisfies its own: the mobile concentration does not depend on the traps. With the default 'CG' and a trap defined in some materials only this is false: the term c_t = 0 added outside these materials acts as a sink of mobile hydrogen, equal to the trapped concentration found there. On a line with traps in its first part, the flux is constant in each part but jumps at the interface by each trap's concentration at the interface times between 1/4 and 1/3 of the size of the cell after it (per unit of time of the simulation), so the two reported SurfaceFlux values do not add up to zero; and the trapped concentration outside is not zero but alternates in sign from node to node, in the steady state as after a transient step from an empty trap. Defining the trap everywhere with a density that vanishes in a part restores the flux, but the trapped concentration there still alternates in sign.", "quantifier": "first part: every mesh, dimension, kind of coordinates, materials, traps, sources, flux conditions and surface kinetics; second part: every one-dimensional cartesian mesh, cell sizes, materials, temperatures, rates and densities, any number of traps in the first part", "why_tests_cant": "the loss scales with the cell size and is hidden in tests which use one material or compare with loose tolerances; the sign and size of the loss for all meshes need a proof", "anchors": ["festim/concentration/traps/trap.py: Trap.create_trapping_form", "festim/concentration/mobile.py: Mobile.create_diffusion_form", "festim/settings.py: Settings.traps_element_type", "festim/h_transport_problem.py: HTransportProblem.define_function_space"]}
{"id": "C112", "title": "Balance of hydrogen from reported fluxes and inventories", "statement": "In a transient simulation on a line, take the change of the hydrogen present (mobile and trapped) over a converged step and subtract the stepsize times what enters according to the outputs - the SurfaceFlux reported at the ends where a concentration is imposed, the imposed fluxes at the others - and what sources produce. What remains is not zero: it is exactly the change, less the production, counted with the function which decreases from 1 to 0 across the cell at each end with an imposed concentration. Over a run these terms telescope: without sources the balance made of reported values closes at any time, however many steps, up to the size of the cells at these ends times the largest concentration there; sources in these cells add an error which accumulates. So reported fluxes do not balance the reported inventory (a plate charged from one side: 13/16 present, 3/8 entered according to the fluxes), but refining the cells at the ends cures it. A desorption simulation (vacuum at both ends, no traps) reports in the long run, whatever the stepsizes, the initial inventory less what was in the end cells counted with these functions (two cells with concentration 1: 2 present, 1 reported as desorbed).", "quantifier": "every one-dimensional cartesian mesh with any cell sizes, materials, temperatures (uniform with Soret or chemical potential), traps of any kind, sources of solute and traps, flux conditions, stepsizes and number of steps; Dirichlet conditions at none, one or both ends; with and without conservation of the chemical potential (Sieverts)", "why_tests_cant": "a test compares one balance on one mesh with a tolerance; that the defect is a boundary term which never accumulates, for all meshes, data and numbers of steps, needs a proof", "anchors": ["festim/exports/derived_quantities/surface_flux.py: SurfaceFlux.compute", "festim/exports/derived_quantities/total_volume.py: TotalVolume.compute", "festim/concentration/mobile.py: Mobile.create_diffusion_form", "festim/h_transport_problem.py: HTransportProblem.update", "festim/boundary_conditions/dirichlets/dirichlet_bc.py: DirichletBC"]}
{"id": "C113", "title": "Reported fluxes in cylindrical coordinates do not balance", "statement": "In a steady one-dimensional simulation in cylindrical coordinates without sources, the values reported by SurfaceFluxCylindrical at the inner and outer ends add up to zero only if nothing flows. With e the integral of phi/r over the cell at an end (phi decreasing from 1 at the end to 0), it is (1 - e) times the outer value and (1 + e) times the inner value which add up to zero, and which equal the imposed flux times the radius at an end with flux conditions. e lies between h/(2 r) for the larger and the smaller radius of the cell, so the inner value is always smaller in magnitude than the outer one, by a relative amount of first order in the size of the end cells (a tube of radii 1 and 3 with two cells: 219/344 in, 375/344 out). In a transient step the inventory weighted with r changes accordingly, up to what is stored at the ends with imposed concentrations.", "quantifier": "every one-dimensional mesh with any cell sizes and radii, any materials, traps which hold nothing outside their materials, angles; with or without Soret effect and chemical potential, as long as the flux does not vary inside the cells at the ends; Dirichlet conditions at none, one or both ends", "why_tests_cant": "a test compares reported values with an analytical solution within a tolerance on one mesh; the exact defect and its order for all meshes and data need a proof", "anchors": ["festim/exports/derived_quantities/surface_flux.py: SurfaceFluxCylindrical.compute", "festim/concentration/mobile.py: Mobile.create_diffusion_form", "festim/exports/derived_quantities/total_volume.py: TotalVolumeCylindrical.compute", "festim/meshing/mesh_1d.py: Mesh1D"]}
{"id": "C114", "title": "The time lag of permeation", "statement": "A wall with concentrations imposed at both faces, made of any layers and with any traps and sources: what has left through the right face, summed from the reported SurfaceFlux times the stepsizes, is exactly what the steady flux of the imposed concentrations would have delivered, plus what sources produce, less the change of the hydrogen present (mobile and trapped), each point being counted with the part of the wall's resistance before it. With constant data and no traps and sources the permeated amount therefore approaches a straight line whose slope is the steady flux, whatever the stepsizes and the initial state. For a uniform wall of thickness l, initially empty, the line meets zero at the time lag (l^2 - h^2)/(6 D), h being the size of the last cell: the textbook value l^2/(6 D) less h^2/(6 D), however large the stepsizes and however coarse the rest of the mesh.", "quantifier": "every one-dimensional cartesian mesh, materials, temperatures (uniform with Soret or chemical potential), traps, sources, imposed concentrations changing from step to step, stepsizes and number of steps; for the asymptote every sequence of stepsizes not below some positive value and every initial state", "why_tests_cant": "a limit for infinitely many steps over all meshes and stepsizes; a test compares one simulated lag with l^2/(6 D) within a tolerance and cannot tell the discretisation error of the mesh from that of the stepsizes", "anchors": ["festim/exports/derived_quantities/surface_flux.py: SurfaceFlux.compute", "festim/concentration/mobile.py: Mobile.create_diffusion_form", "festim/h_transport_problem.py: HTransportProblem.update", "festim/boundary_conditions/dirichlets/dirichlet_bc.py: DirichletBC.create_dirichletbc", "festim/generic_simulation.py: Simulation.run_transient"]}
{"id": "C115", "title": "Kinetics of traps and trap densities against the exact solutions", "statement": "At a point with constant temperature, mobile concentration and parameters the documented equations of a trap, of the density of an ExtrinsicTrap and of the density of a NeutronInducedTrap are ordinary differential equations. Whatever the number and the lengths of the steps, the computed value lies between the initial value and the exact solution of that equation, and the exact solution between the computed value and the equilibrium: filling and emptying are never too fast and never overshoot, however large the steps. The distance to the exact solution at the same time is at most |initial value - equilibrium| rate^2 (sum of the squared stepsizes), hence of first order in the largest stepsize, and the equilibrium k c n/(k c + p) (resp. the densities where production and saturation or annealing balance) is approached at least like 1/(1 + rate t). For densities the time is the sum of the lengths with which they are advanced, see C13.", "quantifier": "every mesh, material, trap, parameters (non-negative, detrapping or annealing or saturation present), initial value, number of steps, positive stepsizes, and every solution of the differential equation", "why_tests_cant": "a comparison with the exact solution of a differential equation for all stepsizes and numbers of steps; a test compares one run with a tolerance", "anchors": ["festim/concentration/traps/trap.py: Trap.create_trapping_form, Trap.create_transient_form", "festim/concentration/traps/extrinsic_trap.py: ExtrinsicTrap.create_form_density", "festim/concentration/traps/neutron_induced_trap.py: NeutronInducedTrap.create_form_density", "festim/h_transport_problem.py: HTransportProblem.update"]}
{"id": "C116", "title": "Arguments of the constructors of traps", "statement": "ExtrinsicTrap and NeutronInducedTrap accept any keyword: one which is no parameter of theirs (say a misspelt option, or a density) never raises, wherever it stands, and the trap differs from the one built without it at most in the attribute of that name; its density solver gets the same parameters, so that a misspelt tolerance leaves the default. Keywords density, density_previous_solution and density_test_function have no effect at all once the simulation is initialised: the density always starts from the functions allocated there. newton_solver is always refused. Trap refuses every keyword which is no parameter. Required arguments given neither by position nor by keyword are reported as TypeError. When a trap is built, rates and materials are stored as given, the parameters of the density equation converted to constants or expressions, and the five options of the solver, which can be given by keyword only, as given or else their defaults.", "quantifier": "every list of positional arguments and every list of distinct keywords, in any order, of any values for which the conversion does not raise", "why_tests_cant": "a claim about all keywords and argument lists; a test passes a few correct ones, and a silently ignored misspelling is precisely what a test does not try", "anchors": ["festim/concentration/traps/extrinsic_trap.py: ExtrinsicTrapBase.__init__, ExtrinsicTrap.__init__, define_newton_solver", "festim/concentration/traps/neutron_induced_trap.py: NeutronInducedTrap.__init__", "festim/concentration/traps/trap.py: Trap.__init__", "festim/concentration/traps/traps.py: Traps.initialise_extrinsic_traps", "festim/helpers.py: as_constant_or_expression"]}
{"id": "C117", "title": "Balance of heat from the reported thermal fluxes", "statement": "In one dimension, for a steady state or a step of the heat equation: the heat stored per unit time equals what enters according to the outputs (ThermalFlux where the temperature is imposed, the imposed fluxes elsewhere) and what the sources produce, up to two explicit terms at the ends where the temperature is imposed. One is what the end cell stores less what is produced there, counted with the function which decreases from 1 to 0 in that cell. The other is the difference between the conductivity at the surface, which ThermalFlux uses, and its mean over the end cell, which the equation uses, times the slope; it vanishes when the conductivity is constant in that cell and is at most K h/2 times the square of the slope when the conductivity changes at most by K per unit of temperature. So the reported fluxes of a steady state need not cancel even without any source: with two cells, conductivity T - 299 and imposed temperatures 300 and 306 the values reported are -4 and 14 whereas the flux in the wall is 12.", "quantifier": "every one-dimensional cartesian mesh and quadrature, materials with any conductivity, density and heat capacity depending on the temperature, sources, flux and convective conditions, stepsize or steady state", "why_tests_cant": "an identity over all meshes, materials and conditions; a test with a constant conductivity finds both fluxes equal, and one with a variable conductivity cannot tell the error of the reported flux from that of the solution", "anchors": ["festim/exports/derived_quantities/thermal_flux.py: ThermalFlux", "festim/exports/derived_quantities/surface_flux.py: SurfaceFlux.compute", "festim/temperature/temperature_solver.py: HeatTransferProblem.define_variational_problem"]}
{"id": "C118", "title": "Surface kinetics: physical concentrations, unphysical solutions, Sieverts' law", "statement": "SurfaceKinetics on a one-dimensional domain with non-negative rates. As long as the adsorbed concentrations stay between 0 and n_surf, the mobile concentration stays between 0 and n_IS everywhere over a whole run, if the steps are long enough for the mesh (h^2 <= 6 D dt) and nothing else pushes it out; conversely an adsorbed concentration stays between 0 and n_surf if the mobile concentration below the surface is between 0 and n_IS and the adsorption flux does not empty an empty surface or fill a full one. Starting from a physical state a step therefore gives a physical state or, at some surface, a pair which is unphysical on both sides (more adsorbed than n_surf with a negative mobile concentration, or the reverse). Such solutions do exist: the equations of one step can have a physical and an unphysical solution, so that what is obtained depends on the nonlinear solver. In a steady state without sources the SurfaceFlux reported at a surface with kinetics is its net adsorption flux; with kinetics at one end only the steady state is an equilibrium with a uniform mobile concentration, and for adsorption k_d p (1 - s/n_surf)^2 and desorption k_r s^2 it is S sqrt(p) / (1 + S sqrt(p)/n_IS) with S = k_sb/k_bs sqrt(k_d/k_r): Sieverts' law, whatever n_surf and lambda_IS.", "quantifier": "every one-dimensional cartesian mesh and quadrature exact for degree 2, materials, temperatures, number of surface kinetics and surfaces, rates depending on temperature, adsorbed and mobile concentration, stepsizes, other boundary conditions and sources of the right sign (no traps, no chemical potential, no Soret effect)", "why_tests_cant": "bounds for all rates, meshes and stepsizes, and the existence of other solutions of the same equations, which a run of the nonlinear solver does not show; the tests compare single simulations with expected fluxes", "anchors": ["festim/boundary_conditions/fluxes/surface_kinetics.py: SurfaceKinetics.create_form", "festim/concentration/mobile.py: Mobile.create_fluxes_form", "festim/exports/derived_quantities/surface_flux.py: SurfaceFlux.compute", "festim/h_transport_problem.py: HTransportProblem.define_variational_problem"]}
{"id": "C119", "title": "The physical solution of a step with surface kinetics exists, is unique and depends monotonically on the data", "statement": "SurfaceKinetics on a one-dimensional domain with rate constants k_sb, k_bs which depend on position and temperature only and an adsorption flux J_vs which does not depend on the mobile concentration nor increase with the adsorbed one. Whatever the mesh and the stepsize, the equations of a step have at most one physical solution (mobile concentration below the surfaces between 0 and n_IS, adsorbed ones between 0 and n_surf): same mobile concentration at all nodes, same adsorbed concentrations on all surfaces. If moreover the steps are long enough for the mesh (h^2 <= 6 D dt) and J_vs is continuous in the adsorbed concentration, not negative on an empty surface and not positive on a full one, a step from a physical state has a physical solution, hence exactly one; so the unphysical alternative of C118 is never forced by the equations. Such solutions are ordered like their data: with nowhere less source, adsorption flux, imposed, previous mobile and previous adsorbed concentration there is nowhere less mobile nor adsorbed hydrogen.", "quantifier": "every one-dimensional cartesian mesh and quadrature exact for degree 2, materials, temperatures, numbers of surface kinetics and surfaces, densities of sites, lambda_IS, rates, stepsizes, Dirichlet values, affine flux conditions, given sources and decay (no traps, no chemical potential, no Soret effect)", "why_tests_cant": "existence and uniqueness of the solution of a nonlinear system for all meshes and rates; a test only sees the solution the Newton iteration happened to reach", "anchors": ["festim/boundary_conditions/fluxes/surface_kinetics.py: SurfaceKinetics.create_form", "festim/concentration/mobile.py: Mobile.create_fluxes_form", "festim/h_transport_problem.py: HTransportProblem.define_variational_problem", "festim/h_transport_problem.py: HTransportProblem.solve_once"]}
{"id": "C120", "title": "With recombination on the surfaces exactly one solution is not negative", "statement": "One-dimensional domain, any number of RecombinationFlux conditions of any orders at least 1 with coefficients which are not negative, together with given fluxes, dissociation fluxes and mass transfer. The equations of a step, and those of a steady state with a Dirichlet condition or mass transfer, have at most one solution which is not negative at the ends, whatever the mesh and the stepsize. They have one, nowhere negative, if nothing else pushes the concentration below zero, in a transient with h^2 <= 6 D dt or in a steady state with a Dirichlet condition. Over a whole transient simulation with data changing from step to step there is then exactly one history which is not negative. The equations may also have negative solutions: from a uniform concentration 1 in a plate of width 1 with D = 1, Kr = 1 and order 2 on both sides, c = 1/2 and c = -1 both satisfy the step of 1 s, so which one is returned depends on where the Newton iteration starts. Solutions which are not negative are ordered: larger recombination coefficients, smaller sources, imposed or previous concentrations never give more hydrogen anywhere.", "quantifier": "every one-dimensional cartesian mesh and quadrature (exact for degree 2 for existence and comparison), materials, temperatures, recombination coefficients, activation energies, real orders at least 1, stepsizes, Dirichlet values, affine flux conditions, given sources and decay (no traps, no chemical potential)", "why_tests_cant": "existence and uniqueness of the solution of a nonlinear system for all meshes, orders and coefficients; a test only sees the solution the Newton iteration happened to reach", "anchors": ["festim/boundary_conditions/fluxes/recombination_flux.py: RecombinationFlux.create_form", "festim/concentration/mobile.py: Mobile.create_fluxes_form", "festim/h_transport_problem.py: HTransportProblem.define_variational_problem", "festim/h_transport_problem.py: HTransportProblem.solve_once"]}
{"id": "C121", "title": "Outgassing through recombination is complete and adds up to the initial inventory", "statement": "Transient simulation of a one-dimensional domain without traps and sources whose only boundary conditions are RecombinationFlux of orders at least 1, temperature, diffusivities, coefficients and stepsizes changing from step to step (a desorption ramp). In the solution which is not negative (C120) the hydrogen content never increases and what has recombined until a step (stepsize times value of the flux conditions, summed) is exactly the initial content less the present one. If stepsizes, diffusivities and the coefficient of one condition at one end stay above some positive values, the concentration tends to zero at every node and the total desorbed amount tends to the initial content, whatever the mesh, the stepsizes, the order and the initial profile.", "quantifier": "every one-dimensional cartesian mesh and quadrature, materials, temperature histories, numbers of recombination conditions, real orders at least 1, coefficients, stepsizes and initial profiles", "why_tests_cant": "a limit over infinitely many steps of a nonlinear simulation, for all meshes and parameters; a test sees finitely many steps of one simulation", "anchors": ["festim/boundary_conditions/fluxes/recombination_flux.py: RecombinationFlux.create_form", "festim/concentration/mobile.py: Mobile.create_diffusion_form", "festim/concentration/mobile.py: Mobile.create_fluxes_form", "festim/generic_simulation.py: Simulation.run_transient"]}
{"id": "C122", "title": "Steady permeation between surfaces with dissociation and recombination", "statement": "Steady simulation of a wall of any layers, with any traps, whose faces exchange hydrogen by given fluxes, DissociationFlux and RecombinationFlux of orders at least 1 (no concentration imposed). The flux through the wall is the difference of the concentrations below the two faces over the resistance of the wall, and at each face what enters equals what recombines plus what goes through. If something recombines at one face at least there is exactly one solution which is not negative below the faces, the same with and without traps; with fluxes that do not leave it exists and is nowhere negative. With fluxes entering at the left only, the flux through the wall is not negative, not above what enters (surface-limited regime) and below the flux of a wall whose left face is in equilibrium with the source and whose right face is empty (diffusion-limited regime). SurfaceFlux reports at both faces exactly what recombines less what enters, whatever the mesh.", "quantifier": "every one-dimensional cartesian mesh and quadrature, layers, temperatures, traps, numbers of conditions, coefficients, activation energies, pressures and real orders at least 1 (no chemical potential, no sources)", "why_tests_cant": "existence and uniqueness of solutions of a nonlinear problem, and bounds for all parameters of both regimes; a test runs one set of coefficients and sees one Newton solution", "anchors": ["festim/boundary_conditions/fluxes/recombination_flux.py: RecombinationFlux.create_form", "festim/boundary_conditions/fluxes/dissociation_flux.py: DissociationFlux.create_form", "festim/h_transport_problem.py: HTransportProblem.solve_once", "festim/exports/derived_quantities/surface_flux.py: SurfaceFlux.compute"]}
{"id": "C123", "title": "With radiation at the surfaces exactly one temperature is not negative", "statement": "Heat problem in one dimension with properties which do not depend on the temperature, sources, Dirichlet conditions, imposed and convective fluxes, and any number of CustomFlux conditions with field \"T\" such that the hotter the surface the less heat enters, without jumps, and none leaves at absolute zero, for example radiation a*(T0**4 - T**4). A step, or a steady state with a Dirichlet or convective condition, has at most one solution which is not negative at the ends. It has one, nowhere negative, if sources, imposed and external temperatures and the previous temperature are not negative (in a transient, with cells short compared with the distance heat diffuses in the step); so there is exactly one such sequence of temperatures from any initial one. The equations also have solutions below absolute zero: a plate in equilibrium with its surroundings at temperature 1 can as well jump to -2, and only the initial guess of the solver decides between them.", "quantifier": "every one-dimensional cartesian mesh and quadrature, material layers, sources, conditions, custom functions with these properties, stepsizes (for existence in transients: cap h^2 <= 6 cond dt), numbers of steps", "why_tests_cant": "existence and uniqueness among all functions for a nonlinear problem; a test sees the one solution Newton's method finds from its initial guess", "anchors": ["festim/boundary_conditions/fluxes/flux_custom.py: CustomFlux.create_form", "festim/temperature/temperature_solver.py: HeatTransferProblem.define_variational_problem", "festim/boundary_conditions/fluxes/convective_flux.py: ConvectiveFlux"]}
{"id": "C124", "title": "Outgassing with traps is complete and adds up to the mobile and trapped inventory", "statement": "Transient simulation of a one-dimensional domain with any number of traps and without sources, whose only boundary conditions are RecombinationFlux of orders at least 1; temperature, rates, densities and stepsizes change from step to step (thermo-desorption). In a run of converged steps in which no concentration is negative, what has recombined until a step is exactly the initial inventory, mobile and trapped in all the traps, less the present one, and the inventory never increases. If the diffusivities are those of some instant times a factor staying between two positive values, detrapping rates stay above a positive value where hydrogen is trapped, trapping rates times densities stay bounded and the coefficient of one recombination condition at one end stays above a positive value, then after a time t at most a constant over t plus a constant times eps remains, for any eps > 0, with explicit constants; so if the simulated time is not bounded, mobile concentrations at all nodes and the inventory of every trap tend to zero and the desorbed amount tends to the total initial inventory. Stepsizes may tend to zero or grow.", "quantifier": "every one-dimensional cartesian mesh and quadrature, materials, numbers of traps, continuous or discontinuous trap elements, histories of temperature, densities, rates and stepsizes, real orders at least 1, initial profiles", "why_tests_cant": "a limit over infinitely many steps of a nonlinear coupled problem, for all meshes, numbers of traps and histories; a test sees finitely many steps of one simulation", "anchors": ["festim/boundary_conditions/fluxes/recombination_flux.py: RecombinationFlux.create_form", "festim/concentration/mobile.py: Mobile.create_diffusion_form", "festim/concentration/traps/trap.py: Trap.create_trapping_form", "festim/concentration/traps/trap.py: Trap.create_form", "festim/generic_simulation.py: Simulation.run_transient"]}
{"id": "C125", "title": "Outgassing in any dimension: contraction, uniqueness, balance and completeness", "statement": "Transient simulations in cartesian coordinates of any dimension, with any mesh and elements, without traps, Soret effect and chemical potential. Two runs with the same data (sources, decay, Dirichlet and flux conditions, recombination included) whose concentrations are not negative on the recombining surfaces never move apart in L2, so there is at most one such run from given initial concentrations. If hydrogen can only leave (no sources other than radioactive decay, no flux condition lets hydrogen in) and there are no Dirichlet conditions, what has left through the surfaces and decayed until a step is exactly the initial content less the present one. If moreover stepsizes, diffusivities and the coefficient of one RecombinationFlux stay above positive values, and no field of the elements other than zero has zero gradient and vanishes on the surface of that condition (a connected mesh which the surface touches), all coefficients of the solution tend to zero, also with Dirichlet conditions of value zero, and the total amount which leaves or decays tends to the initial content.", "quantifier": "every dimension, mesh, quadrature with non-negative weights, elements, materials, temperature history, decay, flux conditions, order of recombination, stepsizes and initial concentrations", "why_tests_cant": "a limit over infinitely many steps and a comparison of all pairs of solutions of a nonlinear problem on all meshes; a test sees finitely many steps of one simulation", "anchors": ["festim/boundary_conditions/fluxes/recombination_flux.py: RecombinationFlux.create_form", "festim/concentration/mobile.py: Mobile.create_diffusion_form", "festim/concentration/mobile.py: Mobile.create_fluxes_form", "festim/concentration/mobile.py: Mobile.create_source_form", "festim/generic_simulation.py: Simulation.run_transient"]}
{"id": "C126", "title": "With traps, in any dimension: continuous dependence on the initial state and one physical result", "statement": "Transient simulations with any number of traps in cartesian coordinates of any dimension, any mesh, any elements for the solute and for each trap, any sources (radioactive decay of trapped hydrogen included), Dirichlet and monotone flux conditions, without Soret effect and chemical potential. Call physical a result with no negative concentration and no trap filled beyond its density. If in step i the stepsize times k n of each trap, and the stepsize times the sum over the traps of p + k c, are at most 4 kappa_i with kappa_i < 1 (c a bound of the mobile concentration), the distance in L2 of mobile and trapped concentrations between two physical simulations with the same data grows in that step at most by the factor 1/(1 - kappa_i). So from given initial concentrations there is at most one physical result, whatever the elements. The restriction to physical results is necessary: from a uniform state with mobile concentration 1/4 and trapped concentration 3/4 of a trap of density 1, with unit rates and stepsize, the residual which the nonlinear solver is given vanishes for all test functions both at (1/2, 1/2) and at (-5/2, 7/2).", "quantifier": "every dimension, mesh, quadrature with non-negative weights, elements, number of traps and their materials, rates and densities, temperature history, sources, flux conditions, stepsizes, number of steps, and all pairs of physical solutions", "why_tests_cant": "uniqueness and continuous dependence speak of all pairs of solutions of a nonlinear system on all meshes; a test sees the one solution which Newton's method happens to reach, and the second root only if it is looked for", "anchors": ["festim/concentration/traps/trap.py: Trap.create_trapping_form", "festim/concentration/traps/trap.py: Trap.create_source_form", "festim/concentration/mobile.py: Mobile.create_diffusion_form", "festim/h_transport_problem.py: HTransportProblem.define_variational_problem", "festim/h_transport_problem.py: HTransportProblem.solve_once"]}
{"id": "C127", "title": "Accuracy with traps in any dimension", "statement": "Transient simulations with any number of traps in cartesian coordinates of any dimension, on any mesh, with any elements for the solute and for each trap (sources, decay, Dirichlet and monotone flux conditions; no Soret effect, no chemical potential), each step solved up to a residual rho_i. Take any other fields with the same Dirichlet values which, put in place of the unknowns, make the residual of step i at most eps_i times the L2 size of the test functions plus eta_i times the root of the integral of D|grad v|^2. If the computed trapped concentrations stay between 0 and the trap densities, the other mobile concentrations between 0 and a bound, and no stepsize exceeds 2/Lambda, where Lambda bounds k n of each trap and the sum of p + k c over the traps, then the L2 distance of mobile and trapped concentrations is at most exp(Lambda t / 2) times (the sum of dt_i (eps_i + rho_i) plus the root of the initial distance squared plus half the sum of dt_i eta_i^2). In particular the error with respect to a solution of the weak equations of diffusion and trapping is at most delta + exp(Lambda t / 2) (initial distance + t (kappa + M dt / 2 + 2 (m+1) Lambda delta + rho)), where delta is the error of an elliptic projection and of the representation of the trapped concentrations on the elements, kappa its rate of change, M the second time derivative and m the number of traps: first order in the stepsize.", "quantifier": "every dimension, mesh, quadrature with non-negative weights, elements, number of traps and their materials, rates and densities, temperature history, sources, flux conditions, stepsizes, number of steps, and all comparison fields", "why_tests_cant": "an error bound over all meshes, elements and exact solutions; tests compare a few manufactured solutions on a few meshes with a tolerance", "anchors": ["festim/concentration/traps/trap.py: Trap.create_trapping_form", "festim/concentration/mobile.py: Mobile.create_diffusion_form", "festim/h_transport_problem.py: HTransportProblem.define_variational_problem", "festim/generic_simulation.py: Simulation.run_transient"]}
