# Formal model of FESTIM in Lean 4 - design

This directory contains a Lean 4 model of the logic of FESTIM (source in /repo,
python package `festim`) and machine-checked proofs of the properties listed in
`properties.jsonl`.

## Layout

* `lean/Verif/Model/*`  - the model; every definition cites file and lines of /repo.
* `lean/Verif/Spec/*`   - the vocabulary of the statements. It does not use the helpers of the model: it defines
  balances, subdomains, schedules, tilings, units, ... from scratch.
* `lean/Verif/Proofs/*` - lemmas.
* `lean/Verif/Props/*`  - the property theorems `CNN_...` and, next to each, examples with concrete data meeting the hypotheses.
* `lean/Verif/Instances/*` - further theorems applied to concrete data, where the examples were not written next to them.
* `MANIFEST.json`       - property -> theorem names and status.
* `seeded/LOG.jsonl`    - attempts at breaking the model with realistic bugs, and which theorems failed. Fields: the
  definition edited, the edit, the claim it breaks, the declarations whose compilation failed, the property theorems
  lost (those that failed or depend, in the compiled constant graph, on a failed declaration) and the theorems
  tightened because a bug had survived.
  What an entry shows depends on the field `failed`. Where it names a `CNN_` theorem, the proof of that theorem no
  longer goes through. Where it names only lemmas or examples (about six entries in ten), Lean stopped there and the
  theorems under `property_theorems_lost` were not tried: they lost their proof, but the log does not show that their
  statements became false, and some of them are about something else than the bug. Entries where `failed` is empty
  are bugs that survived when they were tried.

## Trusted base

1. Lean's kernel (4.33.0) and the axioms `propext`, `Classical.choice`, `Quot.sound`. No axiom is added; there is no
   `sorry`, `admit`, `native_decide` or `bv_decide`. Examples on concrete data use `decide`/`decide +kernel`, checked
   by the kernel.
2. The transcription of Python into Lean. It is done function by function and by hand; the citations let a reader
   compare. Nothing was run.
3. The contracts assumed for the libraries below.

### Numbers

* Control logic (time stepping, export schedules, borders, markers): Python floats are exact rationals `Rat`.
  `np.isclose` is modelled with its actual tolerance, `fenics.near` with an arbitrary one.
* Rounding: time stepping is modelled a second time with a rounding applied to each operation (`Model/Floats.lean`); C80
  says what C01-C06 and C14 become, for Python floats in particular. Overflow, underflow and `nan` are not modelled.
  Elsewhere rounding is not modelled.
* Variational forms, concentrations, fluxes: exact reals with `Real.exp`, `Real.sqrt`.

### Libraries

* **Newton solver** (`fenics.NewtonSolver`): an oracle. A run is driven by an arbitrary list of outcomes
  (iterations, converged). For statements on fields, a converged step is any state that makes the assembled form vanish
  on the test space (exact convergence); a diverged one is arbitrary. C95 is the exception: there the iteration itself and
  the elimination of boundary rows and columns by `SystemAssembler` are modelled, from the documentation of DOLFIN 2019.1,
  with exact arithmetic, an exact linear solver and the residual criterion (the defaults FESTIM leaves unchanged).
* **Assembly**: `assemble(F)` is the sum, over the terms `expr*dx(i)` or `expr*ds(i)`, of a weighted sum over the
  quadrature points carrying marker `i`. One quadrature rule is used for all terms on a subdomain, and `dx([i, j])` is the
  union (UFL documents tuples; lists of ids, as FESTIM passes, are assumed to be accepted and without repetition). Weights are positive where a theorem says so. Consequently a statement about totals is about the integrals
  as FEniCS would compute them, not about the continuum.
* **Test functions**: functions on the quadrature points with a gradient, subject to product/quotient rules.
  Statements with gradients are made for a given test space which contains the functions needed (constants, `r`, or the P1
  space of a one-dimensional mesh, which is constructed in `Spec/Line.lean`), never for "all functions".
* **UserExpressions / sympy / ccode**: an expression has the value of its formula at quadrature points, at the last `t`
  assigned. The printed string is modelled only for the test `"t" in str(expr)` (C56, C57).
* **Function spaces**: a mixed function is a list of components; `split`, `sub(i)`, `assign`, `interpolate` act on components.
* **Files**: appended rows / overwritten tables as lists; encodings, HDF5 and XML contents are not modelled.
* **Python**: dict/list/isinstance/attribute errors follow the language reference. Exceptions are values of `PyErr`
  (kind only, no message unless stated); an execution that raises stops. Warnings are not modelled.

## Plan and result per property

For each property: which part of the model it is about and how it is proved. The exact theorem names are in `MANIFEST.json`.

* **C01** Simulated time never passes final_time - state machine `Run.step` fed with one Newton outcome per solve; invariant by induction on outcomes; exact condition for overshoot and the witness (proved, 2 theorems)
* **C02** Accepted times strictly increase - state machine `Run.step` fed with one Newton outcome per solve; invariant by induction on outcomes (proved, 1 theorems)
* **C03** A finished run ends at final_time and only the last step is there - state machine `Run.step` fed with one Newton outcome per solve; invariant by induction; end-of-run characterisation through the `isclose` test (proved, 1 theorems)
* **C04** A constant stepsize visits the uniform grid and stops - state machine `Run.step` fed with one Newton outcome per solve; closed form of the accepted times by induction; step count (proved, 1 theorems)
* **C05** Milestones are not jumped over - state machine `Run.step` fed with one Newton outcome per solve; invariant by induction on outcomes (proved, 2 theorems)
* **C06** Milestones are reached within tolerance - state machine `Run.step` fed with one Newton outcome per solve; corollary of C05 with a separation hypothesis; counterexample without it (proved, 2 theorems)
* **C07** max_stepsize caps every step but the first - state machine `Run.step` fed with one Newton outcome per solve; invariant by induction; the cases where the cap is ignored (proved, 5 theorems)
* **C08** Step growth is bounded by the change ratio - state machine `Run.step` fed with one Newton outcome per solve; invariant by induction on outcomes (proved, 1 theorems)
* **C09** Only converged solves are accepted - state machine `Run.step` fed with one Newton outcome per solve; invariant: every recorded time comes from a converged outcome (proved, 4 theorems)
* **C10** Repeated divergence ends in an error - state machine `Run.step` fed with one Newton outcome per solve; geometric decrease and a Bernoulli bound on the number of retries (proved, 3 theorems)
* **C11** Livelock of the retry loop: exact conditions - state machine `Run.step` fed with one Newton outcome per solve; fixpoint analysis of the step function on diverging outcomes (proved, 4 theorems)
* **C12** Time accounting of accepted steps - state machine `Run.step` fed with one Newton outcome per solve; sum of steps by induction; divergence leaves the clock advanced (proved, 3 theorems)
* **C13** Clock of extrinsic trap densities - state machine `Run.step` fed with one Newton outcome per solve; the clock of the extrinsic densities compared with the clock of the run (proved, 4 theorems)
* **C14** Termination of transient runs - state machine `Run.step` fed with one Newton outcome per solve; positive lower bound of the steps; Zeno sequences for the converse (proved, 3 theorems)
* **C15** Semantics of dt_min - state machine `Run.step` fed with one Newton outcome per solve; relational induction on two configurations differing in dt_min (proved, 2 theorems)
* **C16** XDMF cadence - export objects as state machines fed with the accepted times; induction; composition with the run (proved, 3 theorems)
* **C17** 'last' exports fire exactly once at the end - export objects as state machines fed with the accepted times; composition with C01-C03; what happens on overshoot (proved, 3 theorems)
* **C18** Derived-quantities table is rectangular and time-stamped - export objects as state machines fed with the accepted times; table invariant by induction on writes (proved, 2 theorems)
* **C19** Derived-quantities schedule - export objects as state machines fed with the accepted times; iteration counter invariant (proved, 4 theorems)
* **C20** Final CSV holds every computed row - export objects as state machines fed with the accepted times; composition of schedule, table and end of run (proved, 3 theorems)
* **C21** TXT export columns - export objects as state machines fed with the accepted times; column invariant by induction (proved, 1 theorems)
* **C22** TXT export times are honoured - export objects as state machines fed with the accepted times; composition with C05/C06 through the added milestones (proved, 3 theorems)
* **C23** TXT write_at_last - export objects as state machines fed with the accepted times; composition with the end of run (proved, 5 theorems)
* **C24** TXT rows are sorted and deduplicated consistently - `np.unique`, `argsort` and the duplicate filter on lists; permutation proofs (proved, 5 theorems)
* **C25** Re-initialising resets recorded data - export objects as state machines fed with the accepted times; initialise twice (proved, 5 theorems)
* **C26** Accepted borders tile the domain - material lists, borders and markers over rationals; induction on sorted borders (proved, 3 theorems)
* **C27** Every point of a checked 1D domain belongs to exactly one material - material lists, borders and markers over rationals; induction on sorted borders; interval arithmetic (proved, 4 theorems)
* **C28** Cell markers and material lookup agree - material lists, borders and markers over rationals; induction on material list (proved, 3 theorems)
* **C29** Material ids are unique after checking - material lists, borders and markers over rationals; exact characterisation of the checks (proved, 3 theorems)
* **C30** Optional material properties are all-or-none - material lists, borders and markers over rationals; exact characterisation of the checks (proved, 5 theorems)
* **C31** Mesh from vertices - `np.unique` then consecutive cells; list induction (proved, 3 theorems)
* **C32** Surface markers in 1D - facet-marking loop with the two `near` tests (proved, 3 theorems)
* **C33** Material lookup functions are mutually consistent - material lists, borders and markers over rationals; lookup functions compared pairwise (proved, 3 theorems)
* **C34** Every source ends up in exactly one equation - lists of sources, conditions and traps with Python field labels (int or str); exact characterisation of attribution loops (proved, 4 theorems)
* **C35** Boundary-condition checks: soundness and completeness - lists of sources, conditions and traps with Python field labels (int or str); soundness and completeness of the duplicate checks (proved, 6 theorems)
* **C36** Flux boundary conditions reach the equation exactly when the field is the solute - lists of sources, conditions and traps with Python field labels (int or str); exact characterisation; one term per surface (proved, 3 theorems)
* **C37** Trap ids: agreement of positions and ids - lists of sources, conditions and traps with Python field labels (int or str); id assignment as a fold; persistence across runs (proved, 5 theorems)
* **C38** Solution components are in bijection with unknowns - lists of sources, conditions and traps with Python field labels (int or str); component count and bijection (proved, 3 theorems)
* **C39** Initial conditions reach the right component - lists of sources, conditions and traps with Python field labels (int or str); position of the component reached, exactly (proved, 4 theorems)
* **C40** Typed containers only hold objects of their type - container operations with a validity predicate; invariant over operation sequences, then over programs with the tests of the four classes (proved, 8 theorems)
* **C41** Trapping conserves hydrogen - assembled forms of mobile.py, trap.py, h_transport_problem.py as lists of quadrature terms; the trap terms cancel in the sum of equations (proved, 2 theorems)
* **C42** Global hydrogen balance - assembled forms of mobile.py, trap.py, h_transport_problem.py as lists of quadrature terms; test with constants; telescoping over the run; on a line 1 and r are piecewise affine (Props/CoordBalance), r^2 is not: explicit one-cell sphere (proved, 6 theorems)
* **C43** Cylindrical and spherical forms - assembled forms of mobile.py, trap.py, h_transport_problem.py as lists of quadrature terms; test with `r`, `r**2`; P1 membership (proved, 3 theorems)
* **C44** Traps live only in their materials - assembled forms of mobile.py, trap.py, h_transport_problem.py as lists of quadrature terms; test functions supported outside the materials (proved, 3 theorems)
* **C45** Trap occupancy stays physical - pointwise residual of the trap equation; discrete maximum principle (proved, 6 theorems)
* **C46** Extrinsic trap density bounds - pointwise residual of the extrinsic density equation; inequalities; induction over steps (proved, 3 theorems)
* **C47** Neutron-induced trap density - pointwise residual of the neutron-induced density equation; inequalities; induction over steps (proved, 3 theorems)
* **C48** Surface kinetics conserves hydrogen - assembled forms of mobile.py, trap.py, h_transport_problem.py as lists of quadrature terms; surface unknowns added; cancellation of exchange terms; telescoping (proved, 4 theorems)
* **C49** Sign of fluxes - assembled forms of mobile.py, trap.py, h_transport_problem.py as lists of quadrature terms; sign of the contribution of each flux class to the inventory (proved, 3 theorems)
* **C50** Diffusion step is stable and unique - assembled forms of mobile.py, trap.py, h_transport_problem.py as lists of quadrature terms; energy estimate; uniqueness from coercivity (proved, 2 theorems)
* **C51** Chemical potential variable round trip - Theta conversions over reals; both solubility laws (proved, 4 theorems)
* **C52** Chemical potential continuity at interfaces - Theta conversions at a two-sided interface (proved, 3 theorems)
* **C53** Both definitions of mobile concentration agree - Theta post-processing form and `Theta.mobile_concentration`; both evaluated per subdomain (proved, 6 theorems)
* **C54** Dirichlet values are converted to theta consistently - Dirichlet values through `Theta`; exact result including the 1e-16 offset (proved, 4 theorems)
* **C55** Previous-step temperature - temperature objects as state machines; induction over update times (proved, 5 theorems)
* **C56** Steady temperature detection is safe - expression AST with its printed string; structural induction (proved, 5 theorems)
* **C57** Time-dependent expressions are evaluated at the current time - registry of expressions with a mutable t; induction over the run (proved, 6 theorems)
* **C58** Heat balance - assembled forms of mobile.py, trap.py, h_transport_problem.py as lists of quadrature terms; heat form; balance, uniqueness, non-conservation for temperature-dependent capacity (proved, 7 theorems)
* **C59** Radioactive decay - assembled forms of mobile.py, trap.py, h_transport_problem.py as lists of quadrature terms; source terms of RadioactiveDecay; closed form by induction (proved, 4 theorems)
* **C60** Averages lie between extremes - derived quantities as quadrature sums or extrema over degrees of freedom; weighted means lie between extremes (proved, 4 theorems)
* **C61** Retention adds up - derived quantities as quadrature sums or extrema over degrees of freedom; linearity; retention and traps (proved, 3 theorems)
* **C62** Reported fluxes are the fluxes of the equation - derived quantities as quadrature sums or extrema over degrees of freedom; residual tested on the surface equals the reported flux (proved, 7 theorems)
* **C63** Angular ranges - validation tables and value of the angular factors (proved, 9 theorems)
* **C64** Setters accept exactly the documented values, and singletons stand for lists - value universe as an inductive type; exact acceptance tables of the setters (proved, 6 theorems)
* **C65** Which simulations can be initialised - the whole sequence of `Simulation.initialise` with its errors; iff characterisation (proved, 5 theorems)
* **C66** A failed steady solve is reported - steady driver as an effect trace (proved, 6 theorems)
* **C67** Maximum/Minimum on surfaces cannot be used in DerivedQuantities - compute dispatch with arity error (proved, 3 theorems)
* **C68** Temperature available at initialisation - create_functions of the three temperature classes (proved, 2 theorems)
* **C69** Implantation boundary concentration - DirichletBC for implantation; formula, monotonicity (proved, 3 theorems)
* **C70** The unit in the csv header is the unit of the number - string returned by export_unit interpreted as a dimension and compared with the dimension of the integral (proved, 3 theorems)
* **C71** A missing thermal property is reported as TypeError - order of the checks in initialise (proved, 2 theorems)
* **C72** From the model to the files - initialise, run and export models composed: theorems on what the files contain (proved, 4 theorems)
* **C73** Which simulations share which lists - heap of lists with references; default arguments created once (proved, 6 theorems)
* **C74** A derived quantity placed directly in exports is ignored - isinstance dispatch of Exports.write (proved, 3 theorems)
* **C75** Bounds on concentration and temperature in one dimension - assembled forms of mobile.py, trap.py, h_transport_problem.py as lists of quadrature terms; P1 space of a one-dimensional mesh; discrete maximum principle at the node of the minimum; exact condition h^2 <= 6 D dt with a counterexample family for its failure (proved, 8 theorems)
* **C76** The element type of traps decides whether trapped concentrations are physical - assembled forms of mobile.py, trap.py, h_transport_problem.py as lists of quadrature terms; trap equation tested with the trap's own space; pointwise if the residual belongs to the space; closed form of the solution on two cells for CG1 (proved, 2 theorems)
* **C77** The hydrogen inventory can be read from the derived quantities file - assembled forms of mobile.py, trap.py, h_transport_problem.py as lists of quadrature terms; rows of derived quantities compared with the stock of hydrogen of the problem (Spec/Forms), then the balance over a step (C42) between two rows; the last kinetics by induction over the list of conditions (proved, 5 theorems)
* **C78** The csv file of derived quantities can be read back - titles and np.savetxt as lists of characters; a csv reader in Spec/Titles; titles split into words; counting of commas (proved, 5 theorems)
* **C79** What DerivedQuantities.filter finds - loop with flags; request and subclass relation (closure of the class statements) in Spec/Filter (proved, 5 theorems)
* **C80** Time stepping in floating-point arithmetic - Model of time stepping with a rounding after each operation, equal to the exact model when the rounding is the identity (C80_exact); round-to-nearest-even with p bits is constructed and proved to be a rounding; invariants as for C01-C06, C14 with error terms; counterexamples computed by the kernel for 53 bits. (proved, 13 theorems)
* **C81** Exposure to a gas - The balance Kr ce^2 = Kd P by algebra of the Arrhenius laws; testing the weak form (C41) with weight*(c - ce) gives an energy estimate with a surface term Kr (c + ce)(c - ce)^2; a discrete Poincare inequality on the line gives the rate. (proved, 6 theorems)
* **C82** The implantation source - Change of variables and Mathlib's gaussian integrals; the tail by x^2 >= (x - d)^2 + d^2. (proved, 5 theorems)
* **C83** Which fields enter each step - State machine with the fields next to the clock of C01; invariant over executions relating the recorded fields of consecutive steps; the lag is a telescoping sum. The steady and first-step statements come from the trap equations of C45. (proved, 7 theorems)
* **C84** Names of the exported files - Strings as lists of characters; the last slash and the decimal field are recovered from the path. (proved, 7 theorems)
* **C85** Materials of the traps - Induction over the list; designation is a separate relation. The stale case uses the weak form of the trap. (proved, 5 theorems)
* **C86** Exported trap density - Testing the projection with 1 and with indicators of points. (proved, 4 theorems)
* **C87** Times and labels of XDMF files - An XML tree with recursion over the elements; files written as a specification. (proved, 4 theorems)
* **C88** Energies in kJ/mol - Field arithmetic in the reals. (proved, 3 theorems)
* **C89** Steady permeation through layers - The weak form (C41, C58) tested with the basis function of each node gives equality of the fluxes of neighbouring cells; the profile follows by induction over the nodes. In steady state the trapping terms cancel between the equations. (proved, 6 theorems)
* **C90** Linear problems have exactly one solution - The assembled residual of the model is rewritten as a symmetric bilinear form minus a linear one; the form is positive definite on the functions vanishing at the Dirichlet ends, so by equality of dimensions it is onto the dual space. Sequences by recursion over the steps. (proved, 4 theorems)
* **C91** Transient simulations tend to the steady one - The difference to the steady field satisfies the implicit steps without load; testing with itself, the weighted square plus twice the stepsize times the form decreases. The form controls all nodal values (slopes, and one value by the Dirichlet condition, the exchange or the decay), so the square decays geometrically. Existence of the steady field by C90. (proved, 3 theorems)
* **C92** A second call of run - The log of the first run gives the time at which it ended (C03); the loop is followed from the resumed state: the stepsize is at most the remaining time, and a zero stepsize stays zero through adaptation, retries and milestones. (proved, 3 theorems)
* **C93** Which material properties matter, and which are announced as ignored - Noninterference: an arbitrary edit of the materials which keeps the named fields leaves every form equal, by induction over the lists of materials and traps. The warnings are counted exactly. The false warning is shown with the evaluated export. (proved, 6 theorems)
* **C94** Which solver parameters are used - Invariants over arbitrary sessions (assignments of options and solvers, initialisations); the last options given are a separate recursive specification. (proved, 5 theorems)
* **C95** What one nonlinear solve returns - The elimination of boundary rows and columns and the Newton iteration are modelled on vectors of degrees of freedom; an invariant of the iteration gives what holds at its end. The Jacobian is required to be the Frechet derivative of the residual; for affine residuals it is then the matrix, and one step solves the problem. For the problems of C90 the assembled matrix is shown to be regular (definiteness), so no hypothesis on it is left; existence of such a system is proved for each of these problems. (proved, 6 theorems)
* **C96** Transient simulations with their solver - The machine of C83 (time loop and fields) is closed with the solver of C95: the outcome of each attempt is computed instead of being arbitrary. Induction over the number of solves shows that all outcomes are converged with at most one iteration; C14 then gives termination, C03 the last time, C12 the increments and C83 how the fields fit together. (proved, 2 theorems)
* **C97** Derived quantities announced as unsuitable for the mesh type - allowed_meshes of each class is modelled beside the compute functions of C60-C63; the meaning of the names is written down for the body (volume element 1, r, r^2 from the mesh type, not from the class). Case analysis over the classes; one mesh with two radii gives all counterexamples. (proved, 4 theorems)
* **C98** Parameters of a trap given as lists - make_density is a loop which skips None; the choice of the parameters is that of the forms (C44). The parameters of all materials are characterised entry by entry, and linked to the equation at each point. (proved, 7 theorems)
* **C99** Initialising a simulation again - Expression objects made in constructors keep their attribute t, those made in create_form and create_expression start at 0 (reinit). The attributes after a finished run are those of its last record (induction over the run), equal to its time by C57; the mixed equations are written down separately and compared by congruence. The value of the initial condition is a state overwritten by create_functions; induction on the number of calls. (proved, 4 theorems)
* **C100** A small enough stepsize always works - The unknown is a coefficient vector over an arbitrary finite basis of the mixed space (Model/Space). By induction over the form-building code the assembled residual is h⁻¹(Mx - m) + G(x) with M the mass matrix, positive definite, and G continuously differentiable (Proofs/Space). Two Newton iterations then suffice for small h: bounds on increments from M, Lipschitz bounds of G and of its derivative on balls; existence and uniqueness by the contraction principle (Proofs/SmallStep). Run level: induction over the retries with the invariant that only the stepsize changes and is divided by ratio² each time. (proved, 4 theorems)
* **C101** Simulations converge to the solution of the diffusion equation - Spec/Accuracy states what an exact solution is, by derivatives only. Consistency: integration by parts cell by cell by the mean value inequality, interpolation bounds M h²/8 from a Lipschitz derivative, flux continuity telescoping; stability: energy estimate of implicit Euler (Proofs/Accuracy). Steps accepted without iterating: the residual left after elimination of the Dirichlet columns is that of a lifted field, whose distance to the solution is bounded by the energy estimate (Proofs/Accepted). Runs: induction over the accepted steps of C96. Inventories: Cauchy-Schwarz and interval integrals of Mathlib. (proved, 8 theorems)
* **C102** Simulations with traps converge to the solution of the McNabb-Foster equations - Spec/Trapping states what an exact solution is, by derivatives only. The whole form is split into the form without traps, the trapping terms and the trap equations, each evaluated at the points (Props/TrapAccuracy). Energy estimate for mobile and trapped errors together; the trapping rates are Lipschitz where the computed density of empty traps is bounded; discrete Gronwall inequality (Proofs/TrapAccuracy). Consistency as for C101. (proved, 4 theorems)
* **C103** Accuracy of steady 1D simulations and of the surface fluxes they report - Spec/SteadyAccuracy states what an exact solution is, by derivatives only. The consistency estimate of C101 is used with a solution constant in time. Maximum norm from the energy by Cauchy-Schwarz with the resistances (Proofs/SteadyAccuracy); fluxes in the cells by testing with the indicator functions of sets of nodes; SurfaceFlux through C62; mean value theorem for the chord. (proved, 6 theorems)
* **C104** Accuracy in temperature gradients and with computed temperatures - Spec/Varying states what an exact solution is, by derivatives only. In each cell the flux K c' is integrated by parts exactly with an antiderivative; its mean is compared with (quadrature of the conductivities) x (slope of the nodal values) by the mean value theorem and the trapezoidal rule (Proofs/Varying: cell_flux). What remains acts on the differences of the test function and is absorbed by the diffusion term (transient: a discrete Gronwall argument with square roots) or bounded through the resistances (steady). The coupled theorem chains C103_heat, the interpolation error of the temperature and the Lipschitz constant of the Arrhenius law. (proved, 4 theorems)
* **C105** Accuracy and best approximation in any dimension - The residual of a step, tested with v, is rewritten as the weak form of the diffusion equation (defect: a definition with integrals only, no helper of the model). The difference of two defects tested with the difference of the fields is the energy of that difference plus terms of one sign (decay, monotone fluxes); Cauchy-Schwarz on the quadrature and a discrete Gronwall argument (step_bound) give the transient bound. The steady theorems are Cea's lemma with the symmetric form energyForm; the accuracy theorem applies the transient bound to the elliptic projections. The 2D case is a square of four triangles with source and decay, solved exactly. (proved, 6 theorems)
* **C106** The equations do not depend on how the problem is written - Units: a relation between corresponding terms of the two forms (same measure, integrands in a fixed ratio) carried through every form-building function, exceptions included; the counterexample is a computed residual. Order: the residual is a sum of contributions, by induction on permutations. Numbering: pieces of a volume add up to its integral, the solubility markers are unchanged. Grouping: the trapping terms are linear in (density, content) times test function. (proved, 9 theorems)
* **C107** Half of a symmetric domain, a section of a long one - A notion of mesh lying over another one (points, markers, isometric directions) with test functions pushed down by summing over the points above; a relation between corresponding terms of the two forms carried through every form-building function, exceptions included. Mirrors, prisms and rotations are instances; the slab is the instance with piecewise affine functions followed by the renumbering of C106. (proved, 6 theorems)
* **C108** Superposition, comparison and reciprocity - A relation saying that the terms of one form are the combination of those of two others, carried through every form-building function; the run-level statements use uniqueness of the step (C90) and the comparison principle (C75). The counterexample is a constant state with an incident flux balanced by recombination of order two. (proved, 7 theorems)
* **C109** Cylindrical and spherical simulations are those of bodies of revolution - The body is the product of the section with a finite set of weighted positions, with an isometry giving the directions at each position (circle, cylinder and sphere are instances). The general statement of C107 about points lying over points reduces the body to the section with measure r dr; C43 relates that to the forms FESTIM writes. (proved, 6 theorems)
* **C110** Which values of sources are accepted, when others are noticed, and which follow the time - Values as kinds, the attribute value of the objects as a store which reading a decay updates; the loops of the three kinds of equations read it in the order of initialise. By induction on the lists, with C34 for the lists themselves; objects are distinguished by identity. (proved, 3 theorems)
* **C111** Traps in a part of the domain change the steady flux with the default elements - The residual of the whole form is split into the mobile terms, the kinetics and the rest of each trap equation (residual_terms), whence the equations hold one by one (equationsHold_iff). Cutting test functions removes the rest (C111_free). With continuous piecewise affine elements the nodes after the interface give a three-term recurrence solved backwards (alternates), the partition of unity gives the total outside (C111_outside) and the equations of the nodes give the fluxes (C111_loss, C111_reported). Concrete two-layer steady state with fluxes 3/2 and 2. (proved, 7 theorems)
* **C112** Balance of hydrogen from reported fluxes and inventories - The weak form C41 is tested with the function equal to 1 at all nodes except those with an imposed concentration; the flux terms telescope to the fluxes of the end cells, which are what SurfaceFlux reports (line_reported). C112_step; C112_run by induction over the steps with Follows; C112_bound with the mass of the end functions (half a cell). Two steps of a plate charged from the left as a concrete run. (proved, 4 theorems)
* **C113** Reported fluxes in cylindrical coordinates do not balance - The weak form in cylindrical coordinates (C41 and its steady version) is tested with the radius itself, for which the flux term vanishes, less its values at the ends with imposed concentrations; the terms of the end nodes are the reported fluxes (C62_reported_is_inward_flux) times 1 -/+ e (term_end). C113_steady, C113_curvature (bounds for e from the quadrature), C113_defect, C113_step. A tube with two cells as a concrete case. (proved, 4 theorems)
* **C114** The time lag of permeation - The weak form C41 is tested with the part of the resistance before a node, set to 0 at the right end; the flux term telescopes to the steady flux of the imposed values less the reported flux (before_term). C114_cumulated by induction over the steps; C114_asymptote with the convergence of C91 and the profile of C89; C114_lag evaluates what a uniform wall stores with the quadrature (line_moments, stored_uniform). A wall of two cells with stepsizes 1, 2, 1, 2, ... (lag 1/2 instead of 2/3) as a concrete run. (proved, 3 theorems)
* **C115** Kinetics of traps and trap densities against the exact solutions - Spec/Kinetics.lean: solutions of an ordinary differential equation (Mathlib's derivative) and the comparison TracksExact. The pointwise equations C45_equation, C46_equation and C47_equation are a linear implicit Euler recursion, whose factor (damping) is compared with the exponential by induction over the steps (Proofs/Kinetics.lean); every solution of the differential equation is the exponential (evolves_exp). Concrete infinite runs of a trap, an extrinsic and a neutron-induced density. (proved, 4 theorems)
* **C116** Arguments of the constructors of traps - Model/TrapKeywords.lean: binding of arguments as in Python (bindCall), the constructors and the loop over the remaining keywords with its setattr. Inserting a keyword at any position is followed through both bindings and the loop (bind_insert, setKeywords_insert), the values through lookups. Concrete calls of all three classes, one with a misspelt option. (proved, 5 theorems)
* **C117** Balance of heat from the reported thermal fluxes - The weak form C58 is tested with one minus the hat functions of the ends where the temperature is imposed; the conduction term telescopes to the fluxes of the end cells (hat_sum), which differ from the values of C62_heat_flux by conductivityGap. C117_no_gap and C117_gap_bound estimate that term with the quadrature of the cell (equality in the concrete case); C117_unequal is a concrete steady state whose reported fluxes are -4 and 14; a heated plate with one insulated end is a transient case. (proved, 4 theorems)
* **C118** Surface kinetics: physical concentrations, unphysical solutions, Sieverts' law - The part of the form due to surface kinetics is evaluated with arbitrary test functions of the adsorbed concentrations (kinetics_form, kinetics_split); testing with the residual itself gives the balance of each adsorbed concentration (adsorbed_balance). C118_concentration, C118_coverage, C118_alternatives and C118_run use the discrete minimum and maximum principles of C75 with the signs of the exchange. C118_two_solutions exhibits one cell with two solutions (1/2 and 3/2; -17/2 and 21/2). C118_reported, C118_equilibrium and C118_sieverts follow from the rows of the steady equations. Concrete cases on one cell for each theorem. (proved, 8 theorems)
* **C119** The physical solution of a step with surface kinetics exists, is unique and depends monotonically on the data - The hydrogen which leaves the material at an end is a function of the mobile concentration there which does not decrease (release_le, outflow_le), because the adsorbed concentration follows its own balance. C119_unique: energy identity for the difference of two solutions with the coercive bilinear form of C90. C119_comparison: kinetics_onLine turns the condition into a flux and C108_comparison applies. C119_exists: the adsorbed concentration exists for each mobile one (intermediate value theorem, adsorbed_exists), the loss is monotone and Lipschitz, and a linear problem with such a loss at the ends has a solution by Banach's fixed point theorem (bil_solve_monotone); the bounds are those of C75. Concrete cases: the step with two solutions of C118 has one physical solution only; existence for it; comparison with a state which has more hydrogen. (proved, 3 theorems)
* **C120** With recombination on the surfaces exactly one solution is not negative - recomb_form: the residual is the one without recombination plus a monotone function of the concentration at each end. C120_unique: energy identity for the difference with the coercive form of C90. C120_exists: the loss cut off at a bound B is monotone and Lipschitz, so bil_solve_monotone gives a solution; the energy estimate at the ends bounds it by B and C75 makes it not negative, so nothing has been cut off. C120_two_solutions: the two solutions of a concrete step. C120_comparison: C108_comparison. Concrete cases: the only non-negative solution of that step, existence with two conditions of orders 2 and 3/2 on one surface, comparison with a sealed plate. (proved, 5 theorems)
* **C121** Outgassing through recombination is complete and adds up to the initial inventory - C121_balance: the equation tested with the constant 1 and telescoping. C121_complete: the equation tested with the solution itself gives an energy which decreases by at least the dissipation (outgas_energy); the sum of the dissipations is bounded, so they tend to zero, hence the concentration at the end which recombines (power order + 1) and the jumps across all cells. Concrete case: the plate of C120_two_solutions, whose solution comes from C120_run. (proved, 2 theorems)
* **C122** Steady permeation between surfaces with dissociation and recombination - C122_profile: C89_profile with the inflow of the conditions evaluated (permeation_inflow). C122_unique: two solutions of the equations of the faces have the same flux because recombination is monotone, then the same concentrations because it is strictly monotone at one face (faces_unique). C122_exists: intermediate value theorem for the concentration below the left face (faces_exist), then the profile of C89 satisfies all equations (bil_profile). C122_limits: signs in the equations of the faces. C122_reported: C89_reported. Concrete case: wall of thickness 1, D = 1, 5 entering at the left, Kr = 1 and order 2 on both sides: concentrations 2 and 1, flux 1, reported flux -1. (proved, 5 theorems)
* **C123** With radiation at the surfaces exactly one temperature is not negative - The custom fluxes contribute to the assembled heat form their gain at the ends (radiation_form). Uniqueness: testing the difference of two solutions with itself, as for C120. Existence: bil_solve_loss, the linear problem with losses at the ends which are monotone on values that are not negative (losses truncated above an a priori bound, then bil_solve_monotone); not negative by C75_heat_lower_bound in transients and, in steady states, by testing with the negative part (loss_steady_nonneg). C123_run by induction over steps; C123_stefan: radiation satisfies the hypotheses; C123_two_solutions: the two solutions of the concrete step. (proved, 5 theorems)
* **C124** Outgassing with traps is complete and adds up to the mobile and trapped inventory - Degas: a step whose residual (Model.Forms, mobile and traps) vanishes. DegasData.residual splits the residual (form_split, recomb_form, trapsForm_sum); with the same test function for solute and traps the trapping terms cancel (Degas.together), with 1: C124_balance. C124_bound: testing with the discrete function whose flux makes the diffusion term equal to the sum of nodal concentrations minus a multiple of the value at the recombining end (ramp_sum) bounds the time integral of the concentrations by the time integral of that value, which the balance bounds through c <= eps + c^o/eps^(o-1); the trap equations tested with 1 bound the time integral of trapped hydrogen. C124_complete: the inventory does not increase, so it is at most its time integral over t. Example: a plate with all its hydrogen trapped at first. (proved, 3 theorems)
* **C125** Outgassing in any dimension: contraction, uniqueness, balance and completeness - Residual of a step in any dimension: Diffusive.residual (from the assembled form). C125_contract: C105_transient with the second run as the other fields; C125_unique follows. C125_balance: the residual tested with the constant, summed. C125_complete: testing with the solution gives a decrease of the integral of its square which bounds diffusion and recombination (Exhaust.energy); both are summable, so tend to zero; size_coercive (compactness of the sphere in the finite-dimensional space) turns this into convergence of the coefficients. C125_total: with the balance. Example: a square in two dimensions with an inner node and recombination of order two, its explicit run and its uniqueness. (proved, 5 theorems)
* **C126** With traps, in any dimension: continuous dependence on the initial state and one physical result - CoupledStep.residual: the assembled form of the coupled problem (form_split, trapLoop_value and Diffusive.residual). C126_step: the residuals of two solutions tested with their differences; the exchange between solute and trap is (a x - b y)(x - y) with a = k(n - ct), b = k c + p, which is at least -b x^2/4 - a y^2/4 (exchange_ge); diffusion, fluxes and decay are monotone. C126_run: induction over the steps; C126_unique follows. C126_second: an explicit problem on the square with four triangles, whose residual is computed for both results. Examples: a physical step compared with the equilibrium, two equilibria for the whole run. (proved, 4 theorems)
* **C127** Accuracy with traps in any dimension - coupled_core: the difference of the assembled residuals of two sets of fields, tested with their differences (from CoupledStep.residual and monotonicity). C127_step: with exchange_sum and Cauchy-Schwarz for states (gap_cauchy) a recursive inequality for the distance. C127_run: growth_bound (discrete Gronwall). C127_accuracy: the residual of the projections is computed from the exact weak equations, its size estimated with the Lipschitz bound of the trapping rates (exchange_size). Examples: an equilibrium compared with fields which relax to another one without satisfying the equations; an equilibrium compared with another exact solution. (proved, 3 theorems)

## Axioms per theorem

Computed with `Lean.collectAxioms` on the compiled project. Theorems not listed in the shorter groups depend on all three standard axioms.

* **No axiom** (3): `C37_stale_ids`, `C40_iadd_unchecked`, `C99_heat`.
* **propext** (5): `C18_empty_has_no_header`, `C30_missing_named`, `C34_exactly_one`, `C35_string_field_mixed`, `C39_custom_ids_wrong`.
* **propext, Quot.sound** (33): `C07_constructor`, `C07_ignored_without_ratio`, `C116_required`, `C116_trap_rejects`, `C26_degenerate_order`, `C27_nested_single_crashes`, `C29_lookup_missing`, `C33_lookup_sound`, `C33_other_tag_none`, `C36_flux_routing`, `C36_one_term_per_surface`, `C38_components`, `C40_classes`, `C40_constructor`, `C40_extend_not_atomic`, `C40_only_valid`, `C64_T_dt`, `C64_accepts`, `C64_singleton`, `C68_initial_temperature`, `C68_missing_condition`, `C73_change_seen`, `C73_given_list`, `C79_fields_literal`, `C84_filename`, `C85_accepted`, `C85_rejected`, `C94_heat_first`, `C94_heat_user`, `C94_hydrogen`, `C94_trap`, `C94_types`, `C99_heat_first`.
* **propext, Classical.choice, Quot.sound** (502 theorems): every theorem of `MANIFEST.json` not named above.

## What is modelled

Generated from the citations in the comments of `lean/Verif/Model`: a function is listed as modelled when a definition
cites lines of its body (the number in brackets is the share of its lines cited when it is not all of them; the
comment of the definition says what is simplified). Everything else is listed as not modelled. Plain getters,
`value_shape` and files without functions are left out.

| source | modelled | not modelled |
|---|---|---|
| boundary_conditions/boundary_condition.py | BoundaryCondition.__init__ (80%) | - |
| boundary_conditions/dirichlets/custom_dc.py | CustomDirichlet.create_expression, CustomDirichlet.convert_prms | CustomDirichlet.__init__ |
| boundary_conditions/dirichlets/dc_imp.py | dc_imp, ImplantationDirichlet.create_expression | ImplantationDirichlet.__init__ |
| boundary_conditions/dirichlets/dirichlet_bc.py | DirichletBC.create_expression, DirichletBC.normalise_by_solubility, DirichletBC.create_dirichletbc, BoundaryConditionTheta.eval_cell, BoundaryConditionExpression.eval | DirichletBC.__init__, BoundaryConditionTheta.__init__, BoundaryConditionExpression.__init__ |
| boundary_conditions/dirichlets/henrys_bc.py | henrys_law, HenrysBC.create_expression | HenrysBC.__init__ |
| boundary_conditions/dirichlets/sieverts_bc.py | sieverts_law, SievertsBC.create_expression | SievertsBC.__init__ |
| boundary_conditions/fluxes/convective_flux.py | ConvectiveFlux.create_form | ConvectiveFlux.__init__ |
| boundary_conditions/fluxes/dissociation_flux.py | DissociationFlux.create_form | DissociationFlux.__init__ |
| boundary_conditions/fluxes/flux_bc.py | FluxBC.create_form | FluxBC.__init__ |
| boundary_conditions/fluxes/flux_custom.py | CustomFlux.create_form, CustomFlux.convert_prms | CustomFlux.__init__ |
| boundary_conditions/fluxes/mass_flux.py | MassFlux.create_form | MassFlux.__init__ |
| boundary_conditions/fluxes/recombination_flux.py | RecombinationFlux.create_form | RecombinationFlux.__init__ |
| boundary_conditions/fluxes/surface_kinetics.py | SurfaceKinetics.__init__, SurfaceKinetics.create_form, SurfaceKinetics.convert_prms | - |
| concentration/concentration.py | Concentration.__init__ | Concentration.initialise, Concentration.get_comp |
| concentration/mobile.py | Mobile.create_form, Mobile.create_diffusion_form, Mobile.create_source_form, Mobile.create_fluxes_form, Mobile.get_concentration_for_a_given_material, Mobile.mobile_concentration | Mobile.__init__ |
| concentration/theta.py | Theta.initialise (50%), Theta.get_concentration_for_a_given_material, Theta.mobile_concentration, Theta.create_form_post_processing (93%) | Theta.__init__, Theta.post_processing_solution_to_concentration |
| concentration/traps/extrinsic_trap.py | ExtrinsicTrapBase.__init__, ExtrinsicTrapBase.newton_solver, ExtrinsicTrapBase.newton_solver(set), ExtrinsicTrapBase.define_newton_solver, ExtrinsicTrap.__init__, ExtrinsicTrap.create_form_density | - |
| concentration/traps/neutron_induced_trap.py | NeutronInducedTrap.__init__, NeutronInducedTrap.create_form_density | - |
| concentration/traps/trap.py | Trap.__init__, Trap.materials, Trap.materials(set), Trap.make_materials, Trap.make_density, Trap.create_form, Trap.create_trapping_form, Trap.create_source_form | - |
| concentration/traps/traps.py | Traps.__init__, Traps.__setitem__, Traps.insert, Traps.append, Traps.extend, Traps._validate_trap, Traps.assign_traps_ids, Traps.create_forms, Traps.get_trap, Traps.initialise_extrinsic_traps, Traps.define_variational_problem_extrinsic_traps, Traps.define_newton_solver_extrinsic_traps, Traps.solve_extrinsic_traps, Traps.update_extrinsic_traps_density | Traps.make_traps_materials |
| exports/derived_quantities/adsorbed_hydrogen.py | AdsorbedHydrogen.__init__, AdsorbedHydrogen.export_unit, AdsorbedHydrogen.title, AdsorbedHydrogen.compute | - |
| exports/derived_quantities/average_surface.py | AverageSurface.allowed_meshes, AverageSurface.export_unit, AverageSurface.title, AverageSurface.compute, AverageSurfaceCylindrical.allowed_meshes, AverageSurfaceCylindrical.compute | AverageSurfaceCylindrical.__init__ |
| exports/derived_quantities/average_volume.py | AverageVolume.allowed_meshes, AverageVolume.export_unit, AverageVolume.title, AverageVolume.compute, AverageVolumeCylindrical.allowed_meshes, AverageVolumeCylindrical.compute, AverageVolumeSpherical.allowed_meshes, AverageVolumeSpherical.compute | AverageVolumeCylindrical.__init__, AverageVolumeSpherical.__init__ |
| exports/derived_quantities/derived_quantities.py | DerivedQuantities.__init__, DerivedQuantities.__setitem__, DerivedQuantities.insert, DerivedQuantities.append, DerivedQuantities.extend, DerivedQuantities._validate_derived_quantity, DerivedQuantities.filename(set), DerivedQuantities.make_header, DerivedQuantities.assign_measures_to_quantities, DerivedQuantities.compute, DerivedQuantities.write, DerivedQuantities.is_export, DerivedQuantities.is_compute, DerivedQuantities.filter | DerivedQuantities.assign_properties_to_quantities |
| exports/derived_quantities/derived_quantity.py | DerivedQuantity.__init__, DerivedQuantity.allowed_meshes, VolumeQuantity.__init__, VolumeQuantity.volume, VolumeQuantity.volume(set), SurfaceQuantity.__init__, SurfaceQuantity.surface, SurfaceQuantity.surface(set) (66%) | - |
| exports/derived_quantities/hydrogen_flux.py | HydrogenFlux.__init__ | - |
| exports/derived_quantities/maximum_surface.py | MaximumSurface.export_unit, MaximumSurface.title, MaximumSurface.compute | - |
| exports/derived_quantities/maximum_volume.py | MaximumVolume.export_unit, MaximumVolume.title, MaximumVolume.compute | - |
| exports/derived_quantities/minimum_surface.py | MinimumSurface.export_unit, MinimumSurface.title, MinimumSurface.compute | - |
| exports/derived_quantities/minimum_volume.py | MinimumVolume.export_unit, MinimumVolume.title, MinimumVolume.compute | - |
| exports/derived_quantities/point_value.py | PointValue.__init__, PointValue.export_unit, PointValue.title, PointValue.compute | - |
| exports/derived_quantities/surface_flux.py | SurfaceFlux.allowed_meshes, SurfaceFlux.export_unit, SurfaceFlux.title, SurfaceFlux.prop, SurfaceFlux.compute, SurfaceFluxCylindrical.__init__, SurfaceFluxCylindrical.export_unit, SurfaceFluxCylindrical.allowed_meshes, SurfaceFluxCylindrical.title (88%), SurfaceFluxCylindrical.azimuth_range(set), SurfaceFluxCylindrical.compute, SurfaceFluxSpherical.__init__, SurfaceFluxSpherical.export_unit, SurfaceFluxSpherical.allowed_meshes, SurfaceFluxSpherical.title (88%), SurfaceFluxSpherical.polar_range(set), SurfaceFluxSpherical.azimuth_range, SurfaceFluxSpherical.azimuth_range(set), SurfaceFluxSpherical.compute | SurfaceFlux.__init__ |
| exports/derived_quantities/thermal_flux.py | ThermalFlux.__init__ | - |
| exports/derived_quantities/total_surface.py | TotalSurface.allowed_meshes, TotalSurface.export_unit, TotalSurface.title, TotalSurface.compute, TotalSurfaceCylindrical.export_unit, TotalSurfaceCylindrical.azimuth_range(set), TotalSurfaceCylindrical.allowed_meshes, TotalSurfaceCylindrical.compute, TotalSurfaceSpherical.__init__, TotalSurfaceSpherical.export_unit, TotalSurfaceSpherical.azimuth_range(set), TotalSurfaceSpherical.polar_range, TotalSurfaceSpherical.polar_range(set), TotalSurfaceSpherical.allowed_meshes, TotalSurfaceSpherical.compute | TotalSurfaceCylindrical.__init__ |
| exports/derived_quantities/total_volume.py | TotalVolume.allowed_meshes, TotalVolume.export_unit, TotalVolume.title, TotalVolume.compute, TotalVolumeCylindrical.__init__, TotalVolumeCylindrical.export_unit, TotalVolumeCylindrical.azimuth_range(set), TotalVolumeCylindrical.allowed_meshes, TotalVolumeCylindrical.compute, TotalVolumeSpherical.__init__, TotalVolumeSpherical.export_unit, TotalVolumeSpherical.azimuth_range(set), TotalVolumeSpherical.polar_range, TotalVolumeSpherical.polar_range(set), TotalVolumeSpherical.allowed_meshes, TotalVolumeSpherical.compute | - |
| exports/export.py | Export.__init__ | - |
| exports/exports.py | Exports.__init__, Exports.__setitem__, Exports.insert, Exports.append, Exports.extend, Exports._validate_export, Exports.write, Exports.initialise_derived_quantities | - |
| exports/trap_density_xdmf.py | TrapDensityXDMF.write (58%) | TrapDensityXDMF.__init__ |
| exports/txt_export.py | TXTExport.__init__, TXTExport.filename, TXTExport.filename(set), TXTExport.is_it_time_to_export, TXTExport.is_last, TXTExport.initialise, TXTExport.write | - |
| exports/xdmf_export.py | XDMFExport.__init__, XDMFExport.label(set), XDMFExport.mode, XDMFExport.mode(set), XDMFExport.folder(set), XDMFExport.filename, XDMFExport.filename(set), XDMFExport.define_xdmf_file, XDMFExport.write, XDMFExport.is_export | - |
| generic_simulation.py | Simulation.__init__, Simulation.traps, Simulation.traps(set), Simulation.materials, Simulation.materials(set), Simulation.exports, Simulation.exports(set), Simulation.T, Simulation.T(set), Simulation.dt, Simulation.dt(set), Simulation.attribute_source_terms, Simulation.check_boundary_conditions, Simulation.check_mesh_dim_coords, Simulation.attribute_boundary_conditions, Simulation.initialise, Simulation.run, Simulation.run_transient, Simulation.run_steady, Simulation.iterate, Simulation.display_time, Simulation.run_post_processing, Simulation.update_post_processing_solutions | - |
| h_transport_problem.py | HTransportProblem.newton_solver(set), HTransportProblem._all_surf_kinetics, HTransportProblem.initialise, HTransportProblem.define_function_space, HTransportProblem.initialise_concentrations (87%), HTransportProblem.define_variational_problem, HTransportProblem.define_newton_solver, HTransportProblem.attribute_flux_boundary_conditions, HTransportProblem.create_dirichlet_bcs, HTransportProblem.update, HTransportProblem.solve_once, HTransportProblem.update_previous_solutions, HTransportProblem.update_post_processing_solutions | HTransportProblem.__init__, HTransportProblem.compute_jacobian |
| helpers.py | update_expressions, as_expression, as_constant, as_constant_or_expression, kJmol_to_eV, extract_xdmf_times, extract_xdmf_labels | festim_print |
| initial_condition.py | InitialCondition.__init__ | - |
| materials/material.py | Material.__init__, Material.check_properties | - |
| materials/materials.py | Materials.__init__, Materials.__setitem__, Materials.insert, Materials.append, Materials.extend, Materials._validate_material, Materials.check_borders, Materials.check_materials, Materials.check_unique_ids, Materials.check_for_unused_properties, Materials.check_consistency, Materials.check_missing_properties, Materials.find_material_from_id, Materials.find_material_from_name, Materials.find_material, Materials.find_subdomain_from_x_coordinate, Materials.create_properties, Materials.solubility_as_function, Materials.create_solubility_law_markers, ArheniusCoeff.__init__, ArheniusCoeff.eval_cell, ArheniusCoeff.value_shape, ThermalProp.__init__, ThermalProp.eval_cell, ThermalProp.value_shape | - |
| meshing/mesh.py | Mesh.__init__ (57%), Mesh.define_measures | - |
| meshing/mesh_1d.py | Mesh1D.define_surface_markers (57%), Mesh1D.define_volume_markers (40%), Mesh1D.define_measures | Mesh1D.__init__, Mesh1D.define_markers |
| meshing/mesh_from_vertices.py | MeshFromVertices.__init__, MeshFromVertices.generate_mesh_from_vertices (27%) | - |
| meshing/mesh_from_xdmf.py |  | MeshFromXDMF.__init__, MeshFromXDMF.define_markers |
| nonlinear_problem.py | Problem.__init__, Problem.F, Problem.J | - |
| settings.py | Settings.__init__ | - |
| sources/radioactive_decay.py | RadioactiveDecay.__init__, RadioactiveDecay.decay_constant, RadioactiveDecay.decay_constant(set), RadioactiveDecay.form | - |
| sources/source.py | Source.__init__ | - |
| sources/source_implantation_flux.py | ImplantationFlux.__init__ | - |
| stepsize.py | Stepsize.__init__, Stepsize.milestones(set), Stepsize.initialise_value, Stepsize.adapt, Stepsize.next_milestone | - |
| temperature/temperature.py | Temperature.__init__, Temperature.create_functions, Temperature.update, Temperature.is_steady_state | - |
| temperature/temperature_from_xdmf.py | TemperatureFromXDMF.__init__ (50%), TemperatureFromXDMF.create_functions, TemperatureFromXDMF.update, TemperatureFromXDMF.is_steady_state | - |
| temperature/temperature_solver.py | HeatTransferProblem.__init__, HeatTransferProblem.newton_solver(set), HeatTransferProblem.initial_condition(set), HeatTransferProblem.create_functions, HeatTransferProblem.define_variational_problem, HeatTransferProblem.define_newton_solver, HeatTransferProblem.create_dirichlet_bcs, HeatTransferProblem.update, HeatTransferProblem.is_steady_state | - |

## Behaviour found that differs from what a user may expect

The property which states it is given in brackets.

* Time stepping: the run overshoots when the initial step is larger than final_time [C01]; time is not rolled back after
  a divergence [C12]; the retry loop can run forever [C11]; dt_min acts on divergence only [C15]; steps may shrink without
  bound so that the run never ends [C14]; milestones closer than the tolerance band are jumped [C06]; densities of
  extrinsic traps use the next stepsize [C13]; max_stepsize and dt_min are ignored without a change ratio [C07];
  with floats the last time can be beyond final_time by a rounding, milestones are reached within the tolerance only, and
  steps below a rounding of t do not advance the time [C80];
  stepsize_stop_max without t_stop raises TypeError at the first step [C07].
* Exports: iteration counter and XDMF append flag survive a second initialise [C25]; XDMF mode "last" makes a steady
  simulation raise [C17, C66] and writes nothing on overshoot [C17]; write_at_last with an unreached largest time never
  writes [C23]; a requested TXT time may be missed in a sliver next to the tolerance [C22]; an interval of 0 raises
  ZeroDivisionError and a csv file name without directory makes the write raise [C19]; an empty DerivedQuantities writes
  no header [C18]; rows computed after the last export interval are lost [C20]; a derived quantity placed directly in
  exports is never computed [C74]; TXT times prevent a steady simulation from being initialised [C66].
* Materials: a material with borders [[a, b]] crashes the lookup and ids fewer than borders give marker 0 [C27];
  intervals of length zero make the check order-dependent [C26]; cells below 0 get marker 0 [C28]; a numpy integer id is
  silently not found [C33]; a missing thermal property surfaces as TypeError, not as the announced ValueError [C71].
* Fields: a flux on field "0" or on a trap is silently dropped [C36]; 0 and "0" are not recognised as the same field and
  string Dirichlet fields fail on a mixed space [C35]; initial conditions with custom trap ids go to the wrong trap [C39];
  trap ids persist over initialise and may collide [C37].
* Forms: mesh.type is not validated [C43]; hydrogen is not conserved with the chemical potential and a HeatTransferProblem
  [C42], nor with SurfaceKinetics and the chemical potential [C48]; the documented sign of FluxBC is opposite to the code [C49]; concentrations can become
  negative when h^2 > 6 D dt [C75]; traps in the default continuous space can be negative near a front whatever the
  mesh [C76]; with SurfaceKinetics and the chemical potential the equations are not invariant under a change of units
  [C106]; `r**2` is not in P1, so in spherical coordinates hydrogen is not exactly conserved by the discrete problem [C42].
* Theta: initial concentrations are not reproduced at interfaces [C51]; the Dirichlet value in a Henry material is off by
  3e-16 S and CustomDirichlet raises AttributeError with the chemical potential [C54].
* Temperature: a transient heat problem leaves T = 0 until the first update [C68]; the "t" substring test flags some
  constant expressions as unsteady [C56]; the previous temperature already is the new one with a transient heat problem
  and a steady heat problem is never solved again in a transient simulation [C55]; parameters of extrinsic traps are
  frozen at t = 0 [C57]; heat content is not conserved with temperature-dependent capacity [C58]; a string initial
  condition not ending in ".xdmf" is ignored [C68].
* Derived quantities: MaximumSurface and MinimumSurface always raise TypeError [C67]; extrema and averages of empty volumes raise [C60];
  the surface flux is the inflow while the documentation says outflow and fluxes of traps raise KeyError [C62]; the
  azimuth/polar roles are swapped between SurfaceFluxSpherical and TotalVolumeSpherical [C63]; headers of hydrogen totals
  on surfaces have one metre too many [C70]; curvilinear totals of the retention raise depending on the order of the
  quantities [C61]; a title may contain a comma, so that PointValue columns cannot be separated naively [C78]; filter
  returns a single object, a list or [] depending on the number of matches, and ignores tuples [C79].
* Implantation: a bounded domain never receives the whole flux, only half of it when imp_depth is on the boundary, and a
  zero width raises ZeroDivisionError [C82].
* Extrinsic traps: densities are late by exactly the first stepsize, nothing is trapped in the first step, and an
  extrinsic trap is inert in steady simulations [C83].
* Files: an empty folder is the root directory; an unknown field with a file name fails only at the first write; two exports
  of the same field share a file [C84].
* Trap materials: ids, used in the documentation, raise TypeError; resolved materials are kept when initialising again
  [C85]; TrapDensityXDMF exports the first density for every material [C86].
* Simulation: default lists are shared between simulations [C73].

## Limits

* Exact arithmetic outside C80: export schedules, borders and markers are stated for rationals.
* Newton convergence is assumed exact in field statements, except in C95, C96 and C101 where the iteration and its tolerances are modelled.
* The finite-element spaces are abstract except in one dimension. Existence of a solution is shown for linear problems there (C90) and, for
  any finite basis and nonlinear rates, for small enough stepsizes (C100); uniqueness and stability are shown more generally.
