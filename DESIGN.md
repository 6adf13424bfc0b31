# Formal model of p-didier/danse in Lean 4 — design

## Approach

The code is a Python/NumPy research simulator for the DANSE family of distributed
signal-estimation algorithms. The model is a set of small, total, computable Lean functions, one
per Python function (or per nested block of a long method), under `lean/Verif/`. Each
definition carries the file and lines it models and says what is simplified.

* `Verif/Model/*.lean`  — the model (no theorems beyond what definitions need).
* `Verif/Spec/*.lean`   — small independent specifications used in statements.
* `Verif/Proofs/*.lean` — helper lemmas.
* `Verif/Props/*.lean`  — the property theorems (`Cxx_...`), each followed by a
  non-vacuity `example`.

Exceptions are values (`Except PyErr α` or `Option`). Times are elements of an arbitrary linear
order (the code only compares them) or rationals where arithmetic is done on them. Samples
are elements of an arbitrary ring/module; floating-point rounding is not modelled.

## Plan per property

| id | what is modelled | how it is proved |
|----|------------------|------------------|
| C01–C06 | `build_events_matrix`, `_flatten_instants`, `events_groupping_check`, `sort_simultaneous_events`, bypass logic over an arbitrary linear order of times | induction over the sorted event list; loop invariants for (lastUpNode, nFrames) |
| C07 | `generate_aligned_instants` | list induction, sortedness of the clock |
| C08 | efficient broadcast alignment in `prep_evmat_build` | as C07, last-before instead of first-after |
| C09 | `get_sequential_update_instants` as a while loop with a termination measure | well-founded recursion; invariant |
| C10 | composition of C09 with the bypass loop on synchronous clocks | induction over update instants; counterexample for updateEvery>1 |
| C11 | composition of schedule, broadcast and buffer models on synchronous clocks | induction over events; counterexample at the first update |
| C12 | `DANSEparameters.__post_init__` broadcast block | case analysis, `Nat.dvd` |
| C13 | `prime_factors`, `prod`, `get_divisors` (integers; Python's float `n /= i` is exact below 2^53) | induction on trial division |
| C14 | `TestParameters.__post_init__` over the fields it reads | case analysis |
| C15–C18 | `fill_buffers`, `fill_buffers_centr`, `process_incoming_signals_buffers`, update wiping | induction over interleavings |
| C19 | `local_chunk_for_update/broadcast` with Python slice semantics | list arithmetic |
| C20 | `get_buffer_size_for_efficient_bc` | counting induction |
| C21–C22 | `WASN.orientate` (BFS), `ti_compute_partial_sum`, `ti_relay_innetwork_sum_upstream` | induction over rooted trees / levels |
| C23–C25 | `spatial_covariance_matrix_update`, `check_covariance_matrices` | induction over frame histories, Mathlib `Matrix.PosSemidef` |
| C26–C27 | `update_w`, `update_w_gevd` with exact linear algebra (`inv`, GEVD as contract) | Mathlib matrices over ℂ |
| C28–C29 | `update_external_filters`, `normalize_filter_coeff` | induction, convexity |
| C30 | the event loop of `danse` in given-filter mode, composed of the broadcast, buffer, frame and synthesis models (`Model/GivenRun`) | relational induction: the state of the run on the sum is the sum of the states; a run with free filters agrees with the re-run on all rows already written |
| C31–C32 | `danse_batch`, `tidanse_batch`, `update_covmats_batch` | induction over batch updates |
| C33–C35 | WOLA overlap-add, convolution extraction, `back_to_time_domain` | list/finset sums |
| C36–C42 | `get_topo`, `get_vad_per_frame`, `oracleVAD`, `resample_for_sro`, sensor maps, `apply_noise`, source looping | list lemmas, reals |
| C43–C46 | `check_export_folder`, `load_from_yaml`, `dataclasses_equal`, `save`/`load` | case analysis / association lists |
| C47–C49 | `normalize_toint16`, argument binding of `get_fwsnrseg`, `get_dynamic_metric` loop | arithmetic |
| C50–C53 | `DelayBuffer`, `OnlineResampler`, controller clamp, DXCP buffering | induction over histories |
| C54–C55 | `compensate_sros`, `build_phase_shifts_for_srocomp`, `update_sro_estimates` as one state machine (`Model/Sro`); phase factors over ℂ | invariant over updates; DFT shift theorem; counterexample for the centralised channels |
| C56 | `init_complex_filter`, `perform_update`, the copy rule for skipped updates | induction over update histories; counterexample for random initial filters |
| C57 | forgetting factor from the half-life | real powers |
| C58–C59 | fully connected batch DANSE (`Model/Batch`) | rank-one algebra (Sherman–Morrison), invariant on the compressed source gain, monotone error |
| C60 | batch TI-DANSE (`Model/BatchTI`) | as C59 with the in-network sum; counterexample for the default initial filter |
| C61 | `get_key_time`, `get_metrics_key_time` | list segments of the VAD |
| C62 | `get_or_load_vad` over a folder of files | invariant of the folder; counterexample for thresholds that agree in three decimals |
| C63–C64 | assembly of the sensor signals in `build_wasn`, `generate_rand_signal` | pointwise algebra; index arithmetic |
| C65 | shared default sub-dataclasses (`Model/Config`, object identities) | case analysis; witness |
| C66 | `get_metrics` (SNR part), `get_snr` | `Real.logb` algebra |
| C67–C69 | peak search, phase transform and closed loop of `dxcpphat` | order/field algebra, `Complex.norm`, induction over frames |
| C72–C77 | whole online runs (`Model/GivenRun`, `Model/AdaptRun`): event loop, broadcasts, buffers, updates, synthesis; the filter computation is an arbitrary function of the observations | relations between two runs kept by every event (causality, locality); induction over the schedule with a per-update gain; stream contents via C15/C16 |
| C78–C80 | sampling clocks and the schedule of fully connected runs (`Model/Clock`: `check_clock_jitter`, `base_event_checks`, `initialize_events`), composed with the event matrix (C01–C03) and with whole runs | schedule of synchronous nodes in closed form (sorted lists with the same members); composed with C75/C76 for what a run with the schedule of the code does; progress: every event of that schedule succeeds, by an invariant on buffers, filters and outputs |
| C81–C82 | the main loop of `tidanse` (`Model/TIRun`) and `initialize_events` for TI-DANSE (`Model/ClockTI`); specification `DirectRun`, which knows no trees (`Spec/TIRun`) | refinement: the events of an instant are split by type along the order proved in C02, the partial sums and relays are the in-network sum of C22, node-wise updates commute; induction over the schedule with the tree in force as invariant; schedules that differ in their trees ask for the same work |
| C83–C84 | the same runs over the schedules of C82; `observedAt` (`Spec/TIRun`) names samples of the recording only | invariant over the exchanges: the frame a node holds of the in-network sum is the frame of the sum (shift by one hop per exchange; whole chunks by the overlap-add identity of C33); totality: each step succeeds on states with rows of the right lengths; division by a zero weight as `PyErr.nan` |
| C85 | `tidanse` with `preGivenFilters` (`TIStrategy.given`, `recorded` in `Spec/TIGiven`) | relation between three runs kept by every event (partial sums, relays, fusion, updates); simulation of a run by its re-run, with the final histories as prophecy; relation between two runs that differ in the weight on the in-network sum |
| C86–C87 | the buffers, observations and flags of `computeCentralised` and `computeSingleSensorBroadcast` (`Model/CentrRun`); what is sent is specified from the schedule (`rawSent`) | invariant over all histories (buffers = samples sent since the last update, observation = last samples sent), column bookkeeping of `build_ycentr`; composition with the schedule of the code, whole-chunk and efficient |
| C88–C90 | the same run, its estimates and exceptions | relation between three runs; projection onto the plain run; a failing event makes every run fail; two runs that differ in one node |
| C91 | the same run with selecting filters | overlap-add of the frames of C87 |
| C92 | TI-DANSE with `efficientSpSBC`: `tiInstants`, `tiCurrL` | invariant on the last broadcast instant (so that at least `Ns` samples are fused), the refinement of C81, induction along the direct run |
| C93 | `prune_wasn_to_tree`, `update_wasn_object_from_nxgraph`, `set_tree_root` (`Model/Prune`); the spanning-tree algorithm is a parameter | orientation of trees (C21), exchange argument on minimum spanning trees, reachability invariant of `orientate`, refinement C82 |
| C94 | `stoi_any_fs`, `remove_silent_frames`, `stft`, `row_col_normalize` (`Model/Stoi`); resampler, bands and dither are parameters | Cauchy–Schwarz per frame (extended) or band (plain), characterisation of the kept frames, homogeneity of each step |
| C95 | schedule (`Model/Clock`), buffers and run (`Model/Buffers`, `Model/AdaptRun`) for nodes with different clocks | counting of the broadcasts before each update by floors; totality as in C80, overflow by the first update at which it happens |
| C96 | `generate_array_pos`, `rotate_array_yx` over the reals (`Model/Layout`) | closed forms of the coordinates; orthogonality of the Rodrigues matrix by polynomial identities |
| C97 | `random_points_on_line`, spinning-top and random layouts, responses per node (`Model/Layout`) | induction over the points and over the attempts; trigonometric identities for the circle |
| C98 | STFT, frames used, per-bin batch runs, inverse STFT (`Model/BatchSig` around `Model/Batch`, `Model/BatchTI`) | closed form of the overlap-add output; inversion of the DFT; simulation of the loops; convergence by continuity from the per-bin limits |
| C99 | `get_best_perf`, `get_mmse_cost` (`Model/BatchSig`) | same closed forms; slices of lists for the costs |
| C100 | `get_metrics`, `compute_metrics`, what the driver passes (`Model/Evaluate`), for arbitrary score functions | inversion of the sequence of steps; lists and slices |
| C101 | `get_sisnr` with `sosfilt` (`Model/SiSnr`), for any filter design | induction over samples and sections; properties of log and of weighted means |
| C102 | `get_fwsnrseg` with the `stft` it calls (`Model/FwSnr`) | frame arithmetic on natural numbers; homogeneity of the magnitudes; bounds on exp and log |
| C103 | `verify_topology`, `get_unique_node_list`, `get_async_node_delays` (`Model/DemoNet`) | induction over nodes, branches and levels; lists of distinct nodes as maps |
| C104 | `run_simulation_online` and `run_simulation_parallel` with any estimator and any order of arrival (`Model/DemoNet`) | invariant over frames, levels, branches and nodes; permutation of the arrivals |
| C105 | `get_oracle_acs` (`Model/OracleAcs`) | sortedness of the scene changes |
| C106 | `compute_netwide_danse_filts` as called for the figures (`Model/NetFilts`) | blocks of columns; sums over the network split at the own node |
| C107 | `init_covmats_from_batch`, fully connected and tree (`Model/InitBatch`) | argument binding; first failing node of the loop |
| C108 | recording of condition numbers (`Model/CondNum`) | invariant over iterations |
| C109 | `get_raw_source_signals`, `build_scenario` (`Model/Scenario`) | gains from C41, microphone from C40; sums of squares of orthogonal signals |
| C110 | end of `build_wasn` (`Model/NoiseSensors`) | invariant of the loop over listed sensors |
| C111 | `_select_random_files_from_folder` (`Model/Align`) | the index loop over the shrinking list equals a structural pass |
| C112 | `align_with_loaded_yaml_layout` (`Model/Align`) | case analysis of all checks |
| C113 | allocation of rows and the iteration index (`Model/Prealloc`) | update times of C78, C82, C95; fold over the schedule |
| C114 | VAD decisions (C37) against frames (C19) at the update times | index arithmetic; voice activities constructed for the refutations |
| C115 | remaining delay of a channel over a run (`Model/Sro`, `delayLeft`) | closed form of the accumulated shift (C54), induction on updates |
| C116 | `update_sro_estimates` over a run, NaN included (`Model/CohDrift`) | invariant: rows written so far; product of coherences is the spectrum of an impulse (C71) |
| C117 | the main loop of `danse` with everything an update computes (`Model/Danse`: `AdaptRun` + `Scm` + `Mwf` + `ExtFilters`) | refinement: the run is one of the strategies of C77/C80; the state of a node is a function of its observations (induction) |
| C118 | `dump_to_yaml_template` as a map from attribute trees to YAML trees (`Model/Yaml`), with `load_from_yaml` (`Model/Config`) | structural induction over the declared fields and nested instances |
| C119 | the main loop of `tidanse` with everything an update computes (`Model/TIDanse`, on top of `TIRun`, `Scm`, `Mwf`, `ExtFilters`) | simulation of the run by the per-node fold over its observations; invariants of the node states by induction over the history; C81–C84 for networks and termination |
| C120 | `main` and `launch` of the test batteries, `check_export_folder`, `wipe_folder`, order and effect of the exports (`Model/Battery`) | a folder is a list of files, complete or not; a run is a fold over the tests cut off at any action; invariants of folders over any history of runs |
| C121 | the run of C117, at two levels (`Spec/Scale`: `scaled`, `withCov`, `LevelFree`) | every stage commutes with a real factor (equations between results, exceptions included); covariance matrices related by the squared factor as soon as they have been written; induction over the events |
| C122 | the run of C119, at two levels (`Spec/ScaleTI`) | as C121, with the in-network sum and the trees: each event handler commutes with the factor; induction over the events |
| C123 | the run of C117, a node with an empty neighbour list | the DANSE and the local state of the node are equal after every event (`Proofs/Isolated`); induction over the events |
| C124 | the run of C117 with `use1stFrameAsBasis` and a rank test that passes full-rank matrices only (`Spec/Dead`) | the weighted sums of C117 are singular when all frames satisfy a linear equation, so the node has not started (C117) and its rows are the initial ones; silence and multiples of a channel go through the frames and broadcasts by induction over the events |
| C125 | the run of C117 on the recording with gains (`Spec/Gain`) | every stage (frames, filtering, compression, buffers, covariance matrices, update, external filters) commutes with the gains (`Proofs/Gain`, `Gain2`); relation between the two runs by induction over the events (`Gain3`) |
| C126 | `danse_it_up` with its two re-runs (`Pipeline`): C117/C119 runs, the recorded filters, the trees and schedules of the re-runs | re-runs on signals of the same shape end alike (relation by induction over the events); C30/C85 for the sum; pruning a pruned network changes nothing (a spanning forest is its own minimum spanning forest), so the schedule is the same |
| C127 | estimated error of a filter (Spec/Cost: running averages of output powers, no matrices) on what C117/C119 nodes heard | the power is the quadratic form of the weighted covariance matrix; completing the square at the solution of the normal equations, positive definite by C117; the local channels are the first channels |
| C128 | C117 runs on the C78 schedule; what a node with cables would hear (Spec/Single) | the state right after each update (prefix of the run), C78_neighbour_frame there; then C117_wiener |
| C129 | C117 runs; when a node is idle (Spec/NoAdapt) | no prefix of the history meets the start condition, so rows are the initial ones; the run with these rows given (C77), C78_passthrough |
| C130 | Model/DanseCentr: main loop = CentrRun buffers and synthesis + Danse filters + covariance matrices and filters of the two other estimates; Spec/DanseCentr (frames heard, start, rows, what one device would record) | rows: the node state is a fold over the observations, as C117; base run is a projection; Wiener and least error: C127 lemmas at the reference index; order: zero-padded filters compete; heard: C87 on every prefix of the run |
| C131 | the runs of C78/C117/C130 on the C78 schedule with whole chunks | every event of the schedule succeeds: buffer lengths (Alive), positive definite matrices after the start, raw buffers hold a frame at every update |
| C132 | the runs of C78/C117/C130 on the C87 schedule with efficient few-sample broadcasts | every event of the schedule succeeds: a broadcast before the j-th round sends the samples up to the last multiple of L, so that the buffers (Proofs/Total7 effEnd) hold N samples at the first and at least one at every later update, and never more than N |
| C133 | the runs of C92/C119/C126 on the C92 schedule | direct exchange never fails (Proofs/TIRun19: samples since the last exchange, at most 2N-1), C92_run transfers this to the tree; with synchronous clocks the efficient schedule does not depend on the neighbour lists, so re-runs in the pruned tree have it too |
| C134 | the runs of C117 on the efficient schedule of C87 | right induction over the events: after J broadcasts of a node exactly the samples up to effEnd J have been sent (Proofs/Single2: the Dirac filter copies the newest samples of the frame); then as C128 |
| C135 | Model/RandPauses: pauses with the draws as argument; Spec/RandPauses (which samples a pause covers) | induction over the pauses; counting argument for the half |
| C136 | Model/DemoEval: error curve, settling time, residual offset, rated section, power and SNR curves | induction over the frames; case split on the last frame above 1 ppm |
| C137 | Model/GenOffset: the block loop with fuel, DFT with a root of unity; Spec/GenOffset (zero extension, fades) | a whole shift is exact per block (DFT pair, zero padding), the windows of adjacent blocks add up to one; induction over the blocks, termination by the position |
| C138 | Model/Export: plan of files per node, writing stops at the first exception; Spec/Export (wanted files, 16-bit version) | induction over the plan and the nodes |
| C139 | Spec/TIIdle: no reason to adapt (counts, redundancy, start time) on the observations of a run | the fold of the node rule over its observations leaves the rows (C117/C124 lemmas); others silent: the sum is silent by invariant over the direct run (C82) |
| C140 | Spec/TIRemove: the signals without the last node | both runs are refinements of the direct run (C82); simulation of the direct runs with a silent summand; node folds depend on the observations only |
| C141 | Spec: `selector`, `windowGain`, `frameEnds` (as for C125) | one update adds the windowed frame of the selected sensor (C63 lemmas); induction over the run; update times of the generated schedule (C81); idle nodes by C139 |
| C142 | Model/Fused: zFullTD and etaMkFullTD beside the runs; Spec: `LastSamples` (C16), selectors (C77, C83) | the kept signal is the concatenation of what was sent (invariant over the events), hence C16; content by the overlap-add lemmas of C76/C77 and C83 |
| C143 | Spec/Order: `reordered`, order-free rules and initial values | simulation: the state of the reordered run is the reordered state; sums over channels by List.Perm, exceptions of channel maps do not depend on the channel; covariance matrices by submatrix |
| C144 | Spec/OrderTI; `tiDanseRun` of Model/TIDanse | as C143; the channel of the in-network sum is fixed by the permutation, so fusion vector and normalisation commute with it |
| C145 | Model/KeyWindow (strings as character lists), Spec/KeyWindow (`DocRef`: documented values and their meaning in samples) | the string tests are decided for every documented form; positions by C61; the loop by induction on the nodes |
| C146 | Model/BatTable (names as character lists), Spec/BatTable (`Listing`: the folders of a battery in any order, with others) | names by induction on the digits; the last entry of a cell wins, and a cell belongs to one test |
| C147 | Model/AudioRead (dictionaries as lists, iterators as a state that is consumed), Spec/AudioRead (what is asked for) | induction over microphones and nodes |
| C148 | Model/ThirdOct, Spec/ThirdOct (edges, nearest bin) | first least index by induction; nearest bins are monotone in the edge; telescoping over the bands |
| C149 | Model/BlockCost, Spec/BlockCost (mean squared error of a block) | element of the memory of the reshaped array; induction on the number of blocks |
| C150 | Model/NetClock, Spec/NetClock (samples ahead of the roots), Spec/Sro (circular delay) | invariant of zero factors over the run; induction on the updates; DFT shift theorem of C54 |
| C151 | Model/SnrOld, Spec/SnrOld (power where the flag is b) | induction on the signal; algebra of the ratio |
| C152 | Model/RandomRir | induction on the nodes with the number of the next draw |
| C70–C71 | coherence-drift schedule and products (`Model/Sro`) | induction over updates; finite geometric sums; counterexamples |

## How violated properties are handled

Where the pinned code violates the property as a user would state it, the theorems of the property are
of two kinds: those that prove the statement for the inputs for which it holds (the hypothesis that
excludes the others is spelled out in the theorem), and theorems `Cxx_refuted_...` that exhibit, in the
model, an input for which it fails — often for every input of a stated class. The list is
below ("Disagreements"). A theorem that covers only a part of the property for lack of a proof carries
the suffix `_partial`; `MANIFEST.json` says what is missing.

## Trusted base

* Lean 4.33.0's kernel. `vcheck` replays every module with it.
* Axioms: `propext`, `Classical.choice`, `Quot.sound`. No theorem depends on any other axiom; the
  file `AXIOMS.md` lists, for every theorem named in `MANIFEST.json`, the ones it depends on. No
  `native_decide`, no `bv_decide`, no own axioms.
* The reading of the Python code: that each definition in `lean/Verif/Model` does what the lines cited
  in its comment do. `seeded/LOG.jsonl` records edits of these definitions that the theorems reject.
* Numbers. Times that the code only compares are elements of an arbitrary linear order (so IEEE
  doubles are covered); times and indices that are computed are exact rationals or integers; samples,
  filters and spectra are elements of a field or real/complex numbers. IEEE rounding, overflow and
  NaN propagation are not modelled, except where the code produces NaN by an explicit division by
  zero (`PyErr.nan`).
* NumPy semantics that the results depend on and that are modelled: slices with negative and
  out-of-range bounds (`pySlice`), negative indices, broadcasting/assignment shape errors, views
  versus copies where they are observable (`DelayBuffer.read`, returned frames of the resampler,
  overwritten caller arrays), stable/unstable sorting (`np.argsort` is shown not to matter).

## What is modelled

| Model file | Code | Simplifications |
|------------|------|-----------------|
| `Py` | Python/NumPy indexing, slicing, exceptions | printed output dropped |
| `Events`, `Instants` | d_base.py: `build_events_matrix`, `sort_simultaneous_events`, `events_groupping_check`, `generate_aligned_instants`, `prep_evmat_build`, `get_sequential_update_instants` | plotting dropped; computed times exact |
| `Params` | d_base.py `DANSEparameters.__post_init__`, siggen/classes.py `WASNparameters.__post_init__`, d_classes.py `TestParameters.__post_init__` | window samples, seeds, random generation and noise folders dropped |
| `Divisors` | d_base.py `prime_factors`, `prod`, `get_divisors` | naturals instead of floats (< 2^53) |
| `Buffers`, `Frames` | d_classes.py buffers of `broadcast` / `update_and_estimate`; d_base.py `local_chunk_for_*` | preallocated arrays grow |
| `Dft`, `Compress` | d_base.py `back_to_time_domain`, `danse_compression_*`, `dist_fct_approx`, `extract_few_samples_from_convolution`, `get_desired_sig_chunk` | exact transforms; `axis=1` dropped |
| `GivenRun`, `AdaptRun` | d_core.py `danse` with given filters or filters computed by any rule, `generate_signals_for_snr_computation` | centralised and single-sensor estimates are in `CentrRun` |
| `CentrRun` | d_classes.py `pre_fill_buffers_centralised`, `fill_buffers_centr`, `process_incoming_signals_buffers_centr`, `build_ycentr`, `build_yssbc`, the corresponding parts of `update_and_estimate` and `get_desired_signal` | the centralised filters and phase factors are parameters |
| `Clock` | d_base.py `check_clock_jitter`, `base_event_checks`, `initialize_events`, `prep_evmat_build` (fully connected) | times are exact rationals; time stamps are given one list per node |
| `Tree`, `TI` | siggen/classes.py `orientate`; d_classes.py `ti_fusion`, `ti_compute_partial_sum`, `ti_relay_innetwork_sum_upstream`, `ti_update_and_estimate` | |
| `Scm`, `Mwf`, `ExtFilters` | d_classes.py covariance update and checks, `perform_update`, `update_w`, `update_w_gevd`, `update_external_filters`, `normalize_filter_coeff`; d_base.py `init_covmats`, `init_complex_filter` | `inv`, `eigh`, `matrix_rank` through contracts (`LinAlg`) |
| `Batch`, `BatchTI` | d_core.py `danse_batch`, `tidanse_batch`; d_batch.py | one bin; no re-rooting |
| `TIRun`, `ClockTI` | d_core.py `tidanse` (main loop); d_classes.py `ti_fusion`, `ti_update_and_estimate`, `update_up_downstream_neighbors`; d_base.py `prep_evmat_build` (TI branch), `initialize_events` | how a node computes its filters from its observations is a parameter; `prune_wasn_to_tree` is a parameter (any tree per root; C93 puts `Prune` in its place); centralised and single-sensor estimates left out |
| `Prune` | d_base.py `prune_wasn_to_tree`, `update_wasn_object_from_nxgraph`; siggen/classes.py `all_nodes_at_same_position`, `set_tree_root` | the minimum-spanning-tree algorithm is a parameter with a contract; exact reals; plots dropped |
| `Topo` | siggen/utils.py `get_topo`, `array_id`, sensor/node maps | coordinates exact reals; graph drawing dropped |
| `Vad` | siggen/utils.py `oracleVAD`, `get_vad`, `get_or_load_vad`; siggen/classes.py `get_vad_per_frame`, `get_key_time`, `get_metrics_key_time` | file format opaque |
| `SigTools` | siggen/utils.py `resample_for_sro`, `apply_noise`, `get_raw_source_signals`, `generate_rand_signal`, assembly in `build_wasn` | resampling and convolution enter as functions with stated properties |
| `Config` | dataclass_methods.py, d_classes.py `check_export_folder`, d_utils.py `wipe_folder` | YAML values as a small inductive type; pickle/gzip as identity |
| `Metrics` | d_eval.py `get_metrics` (SNR), `get_snr`, `get_dynamic_metric`, frame layout of `get_fwsnrseg`; d_post.py `normalize_toint16` | STOI (see `Stoi`), PESQ and band energies opaque |
| `Layout` | siggen/utils.py `generate_array_pos`, `rotate_array_yx`, `random_points_on_line`, layouts and responses of `build_room` | exact reals; draws and rotations are parameters; `force2D`, YAML layouts and the room simulation dropped |
| `BatchSig` | `get_stft`, `get_istft`, `danse_batch`, `tidanse_batch`, `get_best_perf`, the frame bookkeeping of d_batch.py and `get_mmse_cost` | exact numbers; scipy.signal.stft/istft from their definitions; recordings of equal length; progress messages and plots dropped |
| `Evaluate` | `get_metrics`, `compute_metrics`, outputs as assembled by the driver | score functions and samples are parameters; `get_dynamic_metric` is a parameter (modelled in `Metrics`); 2-D arrays as one list per node; printing dropped |
| `SiSnr` | `get_sisnr`, `scipy.signal.sosfilt`, the argument check of `scipy.signal.butter` | real numbers; the filter design is a parameter; one channel |
| `FwSnr` | `get_fwsnrseg`, `scipy.signal.stft` as called there | real numbers; NaN is `none`; one channel; `gamma > 0` |
| `DemoNet` | `demo_utils.py`: topology descriptions, both simulations | types of the entries not checked; the estimator is a parameter; arrays are functions |
| `OracleAcs` | `get_oracle_acs` | exact times |
| `NetFilts` | `compute_netwide_danse_filts`, its calls in `plot_filter_evol` | exact arithmetic; no figure |
| `InitBatch` | `init_covmats_from_batch` | one bin; data of a batch run |
| `CondNum` | `ConditionNumbers.get_new_cond_number` and its calls | condition number of a matrix a parameter |
| `Scenario` | `build_scenario`, `get_raw_source_signals`, decay of `generate_random_rir` | samples and responses given; exact arithmetic |
| `NoiseSensors` | `build_wasn` 1360-1409 | signals abstract |
| `Align` | choice of noise files, `align_with_loaded_yaml_layout` | files abstract; no random WASN |
| `Prealloc` | `nIter`, rows of `init_from_wasn`, `self.i[k]` | contents of rows arbitrary |
| `CohDrift` | `update_sro_estimates` ('CohDrift') for one neighbour, rows of `yyH`, `yyHuncomp`, `bufferFlags` | entries of two channels only; even DFT size; search opaque; centralised twin not modelled |
| `Danse` | `danse` main loop with `update_and_estimate`, all nodes, DANSE and local filters | rank test and update rule are arguments (rules: `update_w`, `update_w_gevd`); no SRO estimation, no centralised estimates; `ValueError` for a frame of the wrong length comes after the filter computation |
| `Yaml` | `dump_to_yaml_template` | the YAML text itself is not modelled |
| `TIDanse` | `tidanse` main loop, `ti_update_and_estimate` with `spatial_covariance_matrix_update`, `check_covariance_matrices`, `perform_update`, `normalize_filter_coeff`, `update_external_filters` | division of a zero weight is an error (NaN in the code); no centralised or single-sensor estimates |
| `Battery` | `main`, `launch` of `tests/battery2023*.py` that skip tests; `check_export_folder`, `wipe_folder`, `postprocess`, `export_danse_outputs`, `save_metrics` as far as files are concerned | contents of a file: the test that wrote it, or incomplete; no failure of the file system other than a crash; `bypassAllExports` off |
| `KeyWindow` | siggen/classes.py `get_metrics_key_time`, strings of `get_key_time`; its two calls; the check of `TestParameters.__post_init__`; sample indices of `compute_metrics` | strings as lists of characters; `float` a parameter; exact times; NaN is `none` |
| `BatTable` | tests/battery20230915_sros_asfctofL.py `prepare_test_battery`; tests/battery20230915_pp.py `load_data`, `get_data` | one metric, one kind of estimate; scores opaque; strings as lists of characters |
| `AudioRead` | dxcpphat/audio_reader.py `AudioReader` | `load_audio` with `segment_axis` a parameter; dictionaries as lists in order of insertion |
| `ThirdOct` | mypystoi/utils.py `thirdoct`; mypystoi/stoi.py 7-12, 77 | exact reals; one frame of the spectrogram |
| `BlockCost` | tests/battery20231013_pp2_mmse.py 84-119 | exact rationals; one of the three kinds of estimates; `fs` not negative |
| `NetClock` | d_classes.py 2759-2761, 2855-2873, 3025-3069, 3090-3096, 3307-3317 | exact; frames given; `np.real_if_close` left out; node indices in range |
| `SnrOld` | d_eval.py 540-570, 627-656 | real numbers; flags are booleans; infinities and NaN as values |
| `RandomRir` | siggen/utils.py 229-308 | random numbers given; real numbers; time constant not zero |
| `Stoi` | mypystoi/stoi.py `stoi_any_fs`; mypystoi/utils.py `stft`, `remove_silent_frames`, `row_col_normalize` | exact reals; `resampy.resample`, `thirdoct` and the random draws are parameters |
| `Dxcp` | dxcpphat/*.py | FFT exact; windows through their overlap property |
| `Sro` | d_classes.py `compensate_sros`, `update_sro_estimates`, `build_phase_shifts_for_srocomp`; d_sros.py `cohdrift_sro_estimation` | golden-section search enters as a function |

## What is not modelled

IEEE floating point; NumPy/SciPy/networkx/librosa/pyroomacoustics/pysptk internals (results enter as
parameters with stated contracts); room impulse responses; PESQ and the spectral part of the
frequency-weighted SNR; all plotting and printing (`d_post.py` apart from the functions listed); the
file system beyond the export-folder and VAD-folder logic; the profiling code; `npu`/notebook
scripts outside `danse_toolbox`, `siggen` and `dxcpphat`; wall-clock time.

## Disagreements between code and property

What the code does where a user would expect otherwise. Names in brackets are the theorems.

1. Whole-chunk broadcasting in a fully connected network flags an underflow of `DFTsize - Ns` samples at
   every node's first update, although clocks are synchronous [C11_whole_chunk].
2. `init_covmats_from_batch` passes `False` as the fusion filters (TypeError), and then both `False` and the
   filters (TypeError): 'batch_estimates' always fails [C107_refuted_*].
3. `compensate_sros` applies the flag of node q to the wrong channels of the centralised observation for
   q > k [C55_channels_iff, C55_refuted_wrong_channels].
4. An update after the first one with more than `DFTsize` buffered samples raises `ValueError`
   [C16_runs_iff].
5. `normalize_filter_coeff` divides only the last coefficient [C29_refuted_direction].
6. `perform_update` before the start of updates does not copy the filter to the next row, so a random
   initial filter changes at every update [C56_refuted_random_init].
7. `load_from_json` and `save_to_json` cannot work [C46_refuted_*].
8. `get_sequential_update_instants` can return one node more than instants, which makes the tree
   construction raise `IndexError` [C09_tree_construction_can_fail].
9. `dataclasses_equal` is not symmetric [C45_refuted_*].
10. `get_key_time` raises `IndexError` for speech without a pause [C61_refuted_single_utterance];
    `local_chunk_for_update` returns samples from the end of the signal for instants before the start
    [C19_refuted_before_start] (not reachable from a schedule). `build_yssbc` always uses the first
    sensor of a neighbour, whatever `referenceSensor` is.
11. `get_vad_per_frame` keeps an extra trailing frame [C37_refuted_one_per_complete_frame].
12. In sequential TI-DANSE with an update every second frame the updating node is not the root of the
    tree [C10_refuted_for_updateEvery_two].
13. `snrBasis='dry_signal ... mic'` mixes up sensor and node indices [C40_refuted_ref_mic].
14. `get_fwsnrseg` receives its arguments positionally in the wrong order [C48_refuted_*].
15. `get_dynamic_metric` passes the VAD as noise, ends with an extra zero, fails for overlaps below one
    sample [C49_refuted_*]; `diffLocal`/`diffCentr` are never filled and the VAD is ignored
    [C66_refuted_*].
16. `DANSEoutputs.check_init` returns the exception instead of raising it. Not modelled.
17. `normalize_toint16` wraps around, inverts the sign, or yields NaN for silence [C47_refuted_*].
18. `build_wasn` adds the self-noise of the first sensor to the noise-only signals of all sensors; with
    SROs diffuse noise is resampled only in the noise component [C63_refuted_*].
19. Negative `broadcastLength` and unknown `broadcastType` are accepted [C12_refuted_*].
20. `get_divisors` is not sorted [C13_refuted_sorted].
21. `topo-indep_*` update schemes in a fully connected network stay in tree mode; the check against
    simultaneous TI-DANSE with SROs is bypassed [C14_refuted_*].
22. `base_event_checks` indexes the per-node sampling rates with `referenceSensor` (see 43).
23. Centralised few-samples broadcasting with nothing to send passes `ykFrame[-0:]`, the whole frame, and then
    fails [C90_refuted_nothing_to_send].
24. Whole-chunk broadcasting fails with more than two overlapping frames [C33_high_overlap_fails]; the
    chunk after a silent one is not normalised, so speech-only and noise-only re-runs do not add up to
    the mixture at a speech onset [C30_refuted_speech_onset].
25. The `conv` output is one sample late [C34_conv_output_late]; it also ignores the signals received
    from the neighbours (`nLocalMic` channels only).
26. `back_to_time_domain` overwrites the first and last bins of the caller's array.
27. `set_tree_root` ranks nodes by overall/active power rather than by SNR (see 58).
28. TI-DANSE without overlap: the fused frame grows with every broadcast
    [C22_refuted_without_overlap].
29. The centralised covariance with `use1stFrameAsBasis` uses the counters of the DANSE covariance
    [C23_refuted_centralised].
30. Random covariance initialisations are not Hermitian [C24_refuted_random_init].
31. Batch TI-DANSE with the default initial filter divides by zero [C60_refuted_default_init].
32. The VAD file name keeps three decimals of the threshold: a stale VAD is loaded
    [C62_refuted_stale_file].
33. `oracleVAD` with windows shorter than two samples never detects speech [C38_refuted_short_window].
34. Ad-hoc topologies can be disconnected [C36_refuted_connected]; a last node without sensors gets no
    neighbour list [C36_refuted_empty_last_node].
35. An empty source file makes the source loop run forever [C42_refuted_empty_source]; an SRO that leaves
    one sample makes `resample_for_sro` raise [C39_refuted_one_sample].
36. `load_from_yaml` accepts unknown scalar keys [C44_refuted_unknown_name]; overwriting an export folder
    keeps old files [C43_refuted_overwrite_wipes].
37. All `TestParameters()` share their default sub-objects [C65_refuted_*].
38. dxcpphat: `DelayBuffer.read` returns a view [C50_refuted_read_is_stable]; the resampler rejects a
    shift of exactly one block [C51_refuted_full_block]; the IMC controller is not clamped and the simple
    controller integrates without activity [C52_refuted_*]; frames longer than the FFT shift disable the
    estimator silently, the second average starts from zero [C53_refuted_*]; the estimate can exceed
    the configured maximum and the TDOA is dropped at the border [C67_refuted_*]; the phase transform
    depends on the level of quiet signals [C68_refuted_quiet]; the caller's array is overwritten and
    returned frames are views [C69_refuted_*].
39. The closed loop of the coherence-drift estimator increments a row that is zero, so it does not
    accumulate as documented; the open loop compensates only the hops with an estimate; `DXCPPhaT` and
    network-wide estimation are accepted and always fail; [C70_refuted_*].
40. The least-squares lag estimate pairs the regressor with mirrored negative frequencies: it is biased
    by the factor 2P(P+1)/((P-1)(2P-1)) [C71_ls, C71_refuted_ls_exact].
41. With `desSigProcessingType = 'conv'` only the local channels are passed to the synthesis, so nothing a
    neighbour sends can change the output of a node [C74_refuted_conv_uses_neighbours].
42. The sampling frequency is inferred from time steps rounded to a number of decimals: at 48 kHz the
    result is 48000.768 Hz, so the frames that a run reads drift by one sample in 62500; sampling rate
    offsets up to 7 ppm at 16 kHz are not seen [C79_refuted_48kHz, C79_refuted_frames_in_step,
    C79_refuted_small_sro].
43. `base_event_checks` compares all frequencies with the one of the node whose index is
    `referenceSensor`, which is a sensor index: `IndexError` when there are fewer nodes
    [C79_refuted_reference_index].
44. TI-DANSE with whole-chunk broadcasts divides the fusion vector by the weight `g_k` on the in-network sum
    once updates have started; the default `filterInitType` makes `g_k = 0`, and in sequential runs all
    nodes but the updating one still have it: NaN in every such run [C84_default_filters_refuted].
45. TI-DANSE with few-sample broadcasts of `L < Ns` samples shortens the frame of the in-network sum at
    each exchange and ends in `ValueError` [C84_short_chunks_refuted].
46. TI-DANSE with few-sample broadcasts of `L > Ns` samples keeps only the first `Ns` samples of each
    broadcast [C84_long_chunks_refuted].
47. The speech-only and noise-only re-runs of TI-DANSE leave `startUpdates` at `False`, so with whole-chunk
    broadcasts they use other fusion vectors than the run they should decompose [C85_whole_chunk_refuted].
48. TI-DANSE normalises the fused signals by `g_k` with whole-chunk broadcasts only; with few-sample broadcasts
    `g_k` is never used for fusion [C85_few_ignores_weight, C85_whole_uses_weight].
49. The centralised estimate cannot be computed with few-sample broadcasts unless they are efficient, and then
    fails when a node has fewer than `L` new samples [C90_refuted_few_samples, C90_refuted_nothing_to_send].
50. The single-sensor-broadcast estimate cannot be computed with SRO compensation, nor without the centralised one
    (IndexError) [C90_refuted_sro_compensation, C90_refuted_without_centralised].
51. With `desSigProcessingType = 'conv'` the centralised estimate of node k filters the first sensors of the
    network with the filters of its own sensors [C90_refuted_conv_own_sensors].
52. `build_yssbc` always uses the first sensor of the other nodes, whatever `referenceSensor` is
    [C86_single_sensor].
53. With efficient few-sample broadcasts and `L` not dividing `Ns` the frames of the other nodes end up to L - 1
    samples before the own ones, although all clocks agree [C87_efficient].
54. TI-DANSE with efficient few-sample broadcasts (the default) loses the samples Ns .. DFTsize of every node: at
    the first exchange DFTsize samples are fused but only the oldest Ns are used. The frames of the others are
    misaligned with the own ones until sample 2 DFTsize [C92_heard, C92_aligned, C92_misaligned_refuted].
55. The same mode fails with ValueError when L does not divide Ns [C92_undivided_refuted].
56. `prune_wasn_to_tree` writes the link lengths into the adjacency matrix and then reads the links back with
    `adjMat > 0`: a link between two nodes at the same place is lost, the pruned network is disconnected and in
    TI-DANSE some node gets no event [C93_colocated_refuted, C93_colocated_silent].
57. `prune_wasn_to_tree` fails with TypeError when the node positions are `None` (not a "true-room" scenario): the
    branch that handles this case comes after `all_nodes_at_same_position`, which cannot compare `None` [C93_total].
58. `_get_snr` in `set_tree_root` divides the overall power by the power while the speaker is active, so the node
    with the LOWEST SNR becomes the root [C93_snr_root_refuted].
59. A disconnected network is pruned without complaint; the nodes without a path to the root are dropped
    [C93_disconnected].
60. `stoi_any_fs` announces the score 1e-5 for signals that are too short, but with at most 256 samples at 10 kHz
    `remove_silent_frames` takes the norm of an empty array along axis 1 and fails [C94_short_refuted].
61. Without overlap between frames (`Ns = DFTsize`), which the parameters allow, few-sample broadcasts with
    sampling-rate offsets make the run raise `ValueError` as soon as the clock of a neighbour has gained one packet
    [C95_no_overlap]; in general exactly when more than one frame arrives between two updates [C95_completes_iff].
62. The sensors of a linear array are Mk/(Mk-1) times the asked distance apart: `np.linspace(0, Mk * micSep, Mk)`
    has Mk - 1 steps [C96_linear_spacing_refuted].
63. `rotate_array_yx` divides zero by zero when the target is on the vertical axis, also when nothing is to be turned
    [C96_turn_nan].
64. `random_points_on_line` draws a point again when it is too close to the others, but does not check any more that
    it is in the room [C97_line_refuted]; its default `minSpacing=None` is compared with 0, a TypeError for two or
    more points [C97_line_default_refuted].
65. Spinning-top layouts compare coordinates of shape (3, n) with the three room dimensions, so that every number of
    desired or noise sources other than 1 and 3 raises [C97_spinning_top_sources_refuted] and three sources are each
    compared with one dimension [C97_three_sources_refuted]. `random_points_on_line` is called with the offsets in the
    place of `minDistToWalls` and `maxR`.
66. The "vertical" spinning top draws a slanted line in every attempt [C97_vertical_refuted] and puts the circle on the
    floor, where with linear arrays and a distance to the walls no attempt is ever accepted [C97_vertical_never_refuted].
    `np.squeeze(None) is None` is never true: when no centre is found the layout raises instead of trying again.
67. `spinTop_minInterNodeDist` is used as the least radius of the circle: seven or more nodes are closer
    [C97_inter_node_refuted].
68. In random layouts only the node centres keep the distance to the walls: sensors may be outside the room
    [C97_random_sensors_refuted].
69. `[-nNoiseSources:]` with no noise source takes all the responses: those of the desired sources
    [C97_no_noise_refuted].
70. `danse_batch` and `tidanse_batch` allocate one frame less than the transform gives when the frames fit the
    recording exactly, so that every run with an update fails with ValueError [C98_refuted_exact_fit,
    C98_refuted_exact_fit_ti]; with exactly two frames NumPy broadcasts the first one instead [C98_refuted_two_frames].
71. Without overlap the frame-wise VAD is one frame short of the transform and the covariance matrices raise
    IndexError [C98_refuted_no_overlap].
72. The last incomplete frame, and with the default window the first sample, are zero in the output [C98_lost].
73. The cost of the DANSE estimate leaves out 1000 samples at both ends, the costs it is compared with do not
    [C99_refuted_comparison]; with up to 2000 samples it is NaN [C99_cost].
    The driver (tests/sandbox.py) raises NotImplementedError for fully connected batch mode, which is therefore
    modelled from `danse_batch` itself.
74. The best performance is evaluated on `[startIdx + sh : endIdx - sh]` with `sh` 0.2 s: for a window that ends
    before 0.2 s the end index is negative and samples at the end of the recording are used
    [C100_refuted_short_window].
75. `get_metrics` slices `vad`, whose default is None, although it bypasses the VAD [C100_refuted_no_vad]; a dynamic
    metric that is not asked for otherwise raises UnboundLocalError [C100_refuted_dynamic].
76. The best PESQ compares the best estimate with a reference that starts 0.2 s earlier [C100_refuted_pesq_best]; the
    PESQ of the single-sensor-broadcast estimate uses its own filtered speech as reference [C100_refuted_pesq_ssbc].
77. Batch runs, and runs with `bestPerfReference = False`, cannot be evaluated [C100_refuted_batch,
    C100_refuted_no_best].
78. `diffCentr`, `diffLocal` and `diffSSBC` are never computed (0).
79. `get_sisnr` divides the band edges by the sampling frequency but tells `butter` that it is 2 pi: the edges are
    2 pi times too low [C101_refuted_bands].
80. `get_fwsnrseg` never uses the last complete frame and fails on signals shorter than a frame and a shift
    [C102_refuted_one_frame]; at sampling frequencies up to 6 kHz all its scores are NaN
    [C102_refuted_low_rate]; the articulation-index weights `W` are defined there and never used.
81. `verify_topology` counts the root among the nodes synchronised in the first level, and accepts branches of the
    second level that refer to it [C103_refuted_root_again]; `run_simulation_online` then raises KeyError
    [C104_refuted_root_again], `run_simulation_parallel` compares signals that are two frames apart
    [C104_refuted_alignment].
82. `run_simulation_online` never writes frame 0 of the synchronised signals (`>` for `>=`) [C104_online];
    `run_simulation_parallel` does not clear the last frame (`-d:-1`) [C104_parallel].
83. `get_oracle_acs` ignores its argument `delay` [C105_refuted_delay].
84. `compute_netwide_danse_filts` pairs the fusion vectors of iteration i+1 with the filter of iteration i, the
    run does the opposite [C106_refuted_timing]; the figures of real and imaginary parts are made of magnitudes
    [C106_refuted_parts].
85. The SNR of a scenario cannot be set at another microphone than the first if nodes have the same number, at
    least two, of sensors [C109_refuted_other_mics]; dry random signals do not have the asked ratio
    [C109_refuted_dry].
86. `setThoseSensorsToNoise = [0]` does nothing [C110_refuted_sensor_zero]; a replaced sensor is not the sum of
    its components [C110_refuted_components].
87. `_select_random_files_from_folder` removes files from the list it iterates over and so keeps the second of
    two consecutive files that exist at the right sampling rate [C111_refuted_rate].
88. `align_with_loaded_yaml_layout` demands signal files also for random signals [C112_refuted_random_signals].
89. The driver (tests/sandbox.py 60-69) never passes `endComputeMetricsAt` to `build_wasn`: the parameter has no
    effect there (not a theorem: nothing reads it).
90. `nIter` is not the number of updates: with one clock the last row of every array, filters included, keeps its
    initial value [C113_refuted_last_row].
91. With whole-chunk broadcasts the VAD decision of an update is about other samples than those it processes, in
    DANSE [C114_refuted_whole_chunk] and in TI-DANSE [C114_refuted_whole_chunk_ti].
92. Closed-loop compensation adds `alphaEps` times the residual to a fresh zero at each update instead of to the
    previous estimate, and so never removes more than that fraction of an offset [C115_refuted_closed_loop].
93. `update_sro_estimates` multiplies flags, which are in samples, by `broadcastLength` [C116_refuted_flags].
94. With given filters and a closed loop the coherence products are 0/0 [C116_refuted_refilter]; so are they for
    the rest of the run if `segLength > startAfterNups + estEvery` [C116_refuted_early].
95. An array in a field that is not declared as `np.ndarray` (for example `nSensorPerNode` after a layout was
    loaded) comes back from a template as a list [C118_refuted_array].
96. A string in square brackets comes back from a template as what `ast.literal_eval` makes of it
    [C118_refuted_string].
97. `normalize_filter_coeff` divides a view of the filter by itself: at the own turns of node 0 (sequential updating,
    from second 1 on) its weight on the in-network sum becomes one and the other weights keep their scale, so the row
    that is stored and used is not the solution the update rule gave [C119_refuted_normalised].
98. With sequential updating and the default 'selectFirstSensor' filters node 0 divides 0 by 0 at its own turns
    at or after second 1 if updating has not started by then; filter and outputs become NaN [C119_refuted_default].
99. A battery takes a test for done if `metrics.pkl` exists. A crash while this file is written leaves it incomplete and all
    later runs skip the test [C120_refuted_incomplete]; a crash right after it means that the files written later
    (the parameters) are never written [C120_refuted_parameters].
100. `metricsFile` without `metricsPlot`: `save_metrics` opens the file, then fails as there is no attribute `metrics`;
    the empty file makes the next run skip the test [C120_refuted_no_plot].
101. If the user declines the overwriting of an unfinished folder the battery goes on and ends normally without the results
    of that test [C120_refuted_declined].
102. Tests named after a rounded value (`f'{x:.0f}'`) may have the same name (1.5 and 2.5), and then only the first is run
    [C120_refuted_names, C120_refuted_rounding].
103. With the default `use1stFrameAsBasis = False` the initial covariance matrices have a fixed size, so that the level of the
    recording has an effect on the filters: the same recording, twice as loud, is filtered differently [C121_refuted_default].
104. The same in TI-DANSE: with the default `use1stFrameAsBasis = False` the broadcast filters of the same recording, twice as
    loud, differ [C122_refuted_default].
105. With `use1stFrameAsBasis` on, one dead sensor, two sensors with the same signal, or one dead node stop the adaptation of
    a node (of all the neighbours of the dead node) for the whole run, silently: the full-rank test of
    `check_covariance_matrices` is never passed and nothing is raised or printed [C124_dead_sensor, C124_twin_sensors,
    C124_dead_node].
106. With `use1stFrameAsBasis` off (default) the gain of a microphone other than the reference sensor changes the output:
    the arbitrary initial covariance matrices weigh the channels against each other, for the whole run [C125_refuted_default].
107. The driver rejects batch mode in fully connected networks with `NotImplementedError`, although `simType='batch'` is the
    default of `DANSEparameters` and `danse_batch` exists [C126_refuted_batch].
108. TI-DANSE with `efficientSpSBC` and different sampling rates: the broadcast instants are computed from the neighbours in the
    network that was given; the re-runs for the SNR get the pruned tree, so they broadcast at other instants than the run, and
    filtered speech and filtered noise do not add up to the estimate [C126_refuted_efficient].
109. The covariance matrix of a frame is divided by the number of channels, the initial matrices are not: without
    `use1stFrameAsBasis` (default) the initial matrix weighs more for the DANSE filters than for the local ones, in proportion to
    the number of channels, so the two minimise different criteria until the initial matrix is forgotten [C127, hypotheses of (c)].
110. In a network that is not fully connected `computeSingleSensorBroadcast` raises `ValueError` at the first update:
    `build_yssbc` stacks one sensor of every other node, `ySSBC[k]` has room for one channel per neighbour only
    [modelled; C131 (d), (e) assume full connection].
111. `compensate_sros` (d_classes 2004-2016) with `compensateSROs` and `includeFSDflags` reads the centralised flags with
    `nSensorsNeighborsCentr[k][:q]`, a list that skips node `k` but is indexed by node number, and does not add the own sensors:
    flags can be applied to channels of another node [the phase factors are a parameter of the model].
112. `evaluate_simulation_results` (demo_utils 88-204) gives a node whose error never exceeds 1 ppm the settling time -1 and
   then no SSNR ("segment too short"), see `C136_perfect_not_rated`; frames are hard-coded to 2**11 samples whatever the
   frame length of the run; the section compared ends at Tc + T_max, not at T_max (`C136_rated`).
113. The smoothed power curves of `compute_node_snr` divide by the full window length at both ends of the recording: a
   stationary signal of at most 0 dB starts with -inf (`C136_smoothed_edge`).
114. `gen_offset` (demo_utils 492-542) ends the loop at `block_end - integer_offset`: a delay (negative offset) loses the end
   of the signal (`C137_delay_truncates`).
115. `export_sounds` (d_post 1192-1287) after a batch run in a network that is not fully connected with whole-chunk
   broadcasts (the default) raises ValueError at the first node: its in-network sum is empty (`C138_refuted_batch_ti`). The
   file named after the reference sensor ("noisy ... Sref") contains all sensors; a batch run of a fully connected network
   has no fused signal file.

116. `ti_update_and_estimate` (d_classes 2920-2993) normalises the filters of node 0 when nodes update in turns even if the
   covariance matrices were not accepted: an idle node 0 gets weight one for the in-network sum in place of its initial
   weight (example after `C139_frozen`).
117. If all other nodes are dead, a node does not adapt its TI-DANSE filter at all (with use1stFrameAsBasis): the silent sum makes its
   covariance matrices singular (`C139_others_dead`), whereas removing the dead nodes (down to two nodes) changes nothing
   (`C140_remove`).
118. The exported in-network sum of TI-DANSE (`etaMkFullTD`, d_classes 3112-3115, written by `export_sounds` 1253-1261) keeps the oldest
   Ns samples of each frame from the first update on: it starts at sample Ns and is Ns samples ahead of all other exported files
   (`C142_ti_selected`). With few-sample broadcasts the exported fused signals of DANSE are empty (`C142_few`).
119. With the default settings (covMatInitType 'fully_random', use1stFrameAsBasis off) the order in which the sensors of a node are numbered
   changes the output (`C143_refuted_default`): the random initial matrices (of the order of machine precision with the default scaling)
   are blended with the frames. With 'eye' or use1stFrameAsBasis it does not (`C143_order`). The same in TI-DANSE
   (`C144_refuted_default`, `C144_order`).
120. `get_metrics_key_time` does not compare start and end: the evaluation window can be empty without a word
   (`C145_refuted_nonempty`), also for 'after_<x>s' with x the signal duration, which `TestParameters` accepts
   (`C145_config`). A string that is none of the documented ones gives NaN, and `compute_metrics` raises `ValueError` after
   the whole run (`C145_unknown`). An exception at one node leaves the nodes before it with new times
   (`C145_refuted_atomic`). `startComputeMetricsAt=None` is handled by `get_metrics_key_time` but raises `TypeError` in
   `TestParameters.__post_init__`. In floating point the sample index can be one too small: `floor((i / fs) * fs)` with
   i = 1001, fs = 16000 is 1000 (outside the model, which is exact).
121. `load_data` of `tests/battery20230915_pp.py` counts the folders that it ignores: if the listing begins with one whose
   name begins with '_' (such as `_quicktest`, named in the battery script), `params['nNodes']` is never set and
   `get_data` raises `KeyError` (`C146_refuted_ignored`). Whole chunks are put in the column `NS = 512`, which is also a
   broadcast length if the commented-out list of divisors is used: then one of the two results is lost, which one depends
   on the order of the listing (`C146_refuted_collision`).
122. `AudioReader` accepts any iterable as `mic_ids` (`isinstance(…, Iterable)`), also an iterator; it is consumed by the first
   node, the other nodes get an empty dictionary without an exception, and so do all nodes in later calls
   (`C147_refuted_once`). A string as `node_ids` is iterated character by character, unlike a string as `mic_ids`.
123. `thirdoct` gives bands above `fs / 2` without a bin (`C148_refuted_empty`; not with the values of `stoi.py`,
   `C148_stoi`), and the bin of `fs / 2` itself is in no band (`C148_last`).
124. `compute_mmse` ignores what follows the last full half second (`C149_refuted_tail`), and below 2 Hz raises
   `ZeroDivisionError` (`C149_errors`).
125. `compensationStrategy = 'network-wide'` has no effect: nothing calls `estimate_local_clock_drift`, so that every phase shift is by
   zero samples (`C150_refuted_netwide`; with the call, `C150_oracle`).
126. `getSNR` takes `20 log10` of a ratio of powers, twice the value in dB (`C151_refuted_db`).
127. `generate_random_rir` takes an unknown `decay` for none (`C152_refuted_decay`); an unknown `distribution` raises
   `UnboundLocalError` (`C152_errors`).