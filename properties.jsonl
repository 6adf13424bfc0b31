{"id": "C01", "title": "Every scheduled event is delivered exactly once, in time order", "statement": "For per-node update/broadcast (and, for tree networks, fusion/relay/tree-formation) instants, the event list that drives a DANSE run has strictly increasing times, no empty instant, and contains each distinct (time, node, event type) exactly once and nothing else; the result does not depend on how the time sort breaks ties.", "quantifier": "every number of nodes, every finite list of instants per node (unsorted, with duplicates), every tie-breaking of the sort", "why_tests_cant": "Event lists come from float clocks with arbitrary offsets; losing or duplicating one event at one coincidence of clocks is invisible unless that coincidence is sampled.", "anchors": ["danse_toolbox/d_base.py:build_events_matrix", "danse_toolbox/d_base.py:events_groupping_check", "danse_toolbox/d_base.py:sort_simultaneous_events"]}
{"id": "C02", "title": "Simultaneous events in a fully connected network run broadcasts before updates, by node index", "statement": "Inside one event instant of a fully connected run, all broadcasts precede all updates, and events of the same type are in strictly increasing node order, so an update at time t always sees what was broadcast at time t.", "quantifier": "every event instant of every schedule", "why_tests_cant": "Requires every coincidence pattern between nodes' clocks.", "anchors": ["danse_toolbox/d_base.py:sort_simultaneous_events", "danse_toolbox/d_base.py:build_events_matrix"]}
{"id": "C03", "title": "Simultaneous events in a tree network respect data dependencies", "statement": "Inside one event instant of a TI-DANSE run: tree formation, then fusion, then partial sums, then relays, then updates; partial sums run in leaf-to-root order, relays and updates in root-to-leaf order.", "quantifier": "every tree ordering and every set of simultaneous events", "why_tests_cant": "The number of tree shapes and coincidence patterns is unbounded.", "anchors": ["danse_toolbox/d_base.py:sort_simultaneous_events"]}
{"id": "C04", "title": "Sequential updating: at most one node updates per instant, in round-robin order from the chosen start node", "statement": "With sequential node-updating, the nodes whose update is actually performed (not bypassed), read along the whole run, are start, start+1, start+2, ... modulo the number of nodes, at most one per event instant.", "quantifier": "every schedule (synchronous or not), every start node, every minimum update spacing", "why_tests_cant": "A skipped or doubled turn can need an arbitrarily long prefix of asynchronous events.", "anchors": ["danse_toolbox/d_base.py:build_events_matrix"]}
{"id": "C05", "title": "Minimum spacing between filter updates", "statement": "Between two consecutive instants at which some filter update is performed there are at least updateEvery-1 intermediate frame (update) instants at which all updates are bypassed, and the first performed update is not earlier than the updateEvery-th update instant.", "quantifier": "every schedule, every value of updateEvery, every updating mode", "why_tests_cant": "Counter logic over unbounded histories.", "anchors": ["danse_toolbox/d_base.py:build_events_matrix"]}
{"id": "C06", "title": "Simultaneous/asynchronous updating never silently skips an update", "statement": "With non-sequential node-updating and updateEvery<=1 no update is bypassed; with updateEvery=m>1 either all or none of the updates of an instant are bypassed and they are performed at exactly every m-th update instant.", "quantifier": "every schedule and every updateEvery", "why_tests_cant": "Needs all schedules.", "anchors": ["danse_toolbox/d_base.py:build_events_matrix"]}
{"id": "C07", "title": "Event instants are real sample instants of the node", "statement": "Every update/broadcast/fusion instant generated for a node is one of that node's sample time stamps; it is the earliest time stamp not before the nominal instant j*sep/fs, or the last time stamp if the nominal instant is after the end of the recording; the instants are non-decreasing.", "quantifier": "every clock (increasing time stamps), start index, event separation and count", "why_tests_cant": "Float clocks with arbitrary SRO; needs all stamps.", "anchors": ["danse_toolbox/d_base.py:generate_aligned_instants"]}
{"id": "C08", "title": "Efficient few-sample broadcasting is aligned to the past and covers all neighbours' updates", "statement": "With efficient sample-per-sample broadcasting, each broadcast instant of a node is a multiple-of-L sample instant, not later than the neighbour's update instant that caused it whenever such an instant exists, and no possible broadcast instant lies between the two.", "quantifier": "every clock, neighbourhood, update schedule and L", "why_tests_cant": "Needs all clock relations.", "anchors": ["danse_toolbox/d_base.py:prep_evmat_build"]}
{"id": "C09", "title": "Sequential tree re-rooting instants follow the round robin", "statement": "The instants at which the TI-DANSE tree is re-formed under sequential updating are strictly increasing, the j-th is an update instant of node start+j mod K and is the earliest one after the previous; the construction terminates. The list of nodes and the list of instants have equal length unless some node runs out of update instants before another, in which case tree construction fails.", "quantifier": "every family of per-node update instants and start node", "why_tests_cant": "Termination and length agreement over all asynchronous clocks.", "anchors": ["danse_toolbox/d_base.py:get_sequential_update_instants", "danse_toolbox/d_base.py:prep_evmat_build"]}
{"id": "C10", "title": "Under sequential TI-DANSE the updating node is the root of the current tree", "statement": "At every instant where a node performs a sequential TI-DANSE update (synchronous clocks), the tree in force is rooted at that node. (Holds for updateEvery<=1; refuted for updateEvery>1.)", "quantifier": "every number of nodes, start node, number of frames and updateEvery", "why_tests_cant": "Two counters that must stay in lock-step for the whole run.", "anchors": ["danse_toolbox/d_base.py:prep_evmat_build", "danse_toolbox/d_base.py:build_events_matrix", "danse_toolbox/d_core.py:tidanse"]}
{"id": "C11", "title": "Synchronous DANSE has no spurious buffer flags", "statement": "In a fully connected network without SROs, with few-sample broadcasting (length dividing the hop, hop dividing the frame), at each update of each node every neighbour has delivered exactly the number of samples the update expects, and the run does not fail. With whole-chunk broadcasting the same holds from the second update on; at the first update the buffers always miss Ndft-Ns samples (a defect: spurious underflow flag).", "quantifier": "every number of nodes, DFT size, hop size and signal length", "why_tests_cant": "Needs all frame geometries and the whole run.", "anchors": ["danse_toolbox/d_base.py:prep_evmat_build", "danse_toolbox/d_classes.py:DANSEvariables.broadcast", "danse_toolbox/d_classes.py:DANSEvariables.process_incoming_signals_buffers"]}
{"id": "C12", "title": "Accepted broadcast lengths divide the frame hop", "statement": "A DANSE parameter set that is accepted has Ns = int(DFTsize*(1-overlap)); whole-chunk broadcasting forces broadcastLength = Ns; a missing few-samples length becomes 1; a positive few-samples length is accepted exactly when it is at most Ns and divides Ns, and is otherwise a ValueError. (Positivity itself is not checked: negative divisors and unknown broadcast types are accepted; zero is a ZeroDivisionError.)", "quantifier": "every DFT size, overlap, broadcast type and length", "why_tests_cant": "Needs all integer combinations.", "anchors": ["danse_toolbox/d_base.py:DANSEparameters.__post_init__"]}
{"id": "C13", "title": "Divisor suggestions are exactly the divisors", "statement": "The list of divisors offered to the user for n>=1 contains every positive divisor of n exactly once and nothing else. (It is not sorted.)", "quantifier": "every positive integer n", "why_tests_cant": "All n.", "anchors": ["danse_toolbox/d_base.py:get_divisors", "danse_toolbox/d_base.py:prime_factors", "danse_toolbox/d_base.py:prod"]}
{"id": "C14", "title": "Normalising test parameters is idempotent and rejects inconsistent settings", "statement": "Re-running the parameter consistency step on an accepted parameter object changes nothing and asks nothing; accepted objects satisfy the documented cross-field constraints; a network that is not fully connected always ends up in topology-independent mode. (The converse fails: a fully connected network can keep a user-given topology-independent mode, and simultaneous tree updating with SROs is accepted.)", "quantifier": "every combination of the flags and enumerations involved", "why_tests_cant": "Combination of many interacting flags including repeated application.", "anchors": ["danse_toolbox/d_classes.py:TestParameters.__post_init__"]}
{"id": "C15", "title": "Broadcast buffers are loss-free FIFO queues addressed to the right neighbour", "statement": "Between two updates of node q, the buffer q holds for neighbour k is exactly the concatenation, in order, of the chunks k broadcast since q's last update, for every interleaving of broadcasts and updates of all nodes.", "quantifier": "every interleaving, every (symmetric) neighbour relation, every chunk content", "why_tests_cant": "Interleavings are unbounded.", "anchors": ["danse_toolbox/d_classes.py:DANSEvariables.fill_buffers", "danse_toolbox/d_classes.py:DANSEvariables.broadcast", "danse_toolbox/d_classes.py:DANSEvariables.process_incoming_signals_buffers"]}
{"id": "C16", "title": "The frame used at an update is the most recent DFT-size window of the received stream", "statement": "At the i-th update the frame used for each neighbour has exactly Ndft samples and equals the last Ndft samples of the (zero-preceded) concatenation of everything received, provided no buffer exceeded Ndft samples after the first update; otherwise the stacking of frames fails.", "quantifier": "every sequence of buffer lengths and contents", "why_tests_cant": "Unbounded histories of variable-length buffers.", "anchors": ["danse_toolbox/d_classes.py:DANSEvariables.process_incoming_signals_buffers"]}
{"id": "C17", "title": "Buffer flags account for all drifted samples", "statement": "The running sum of the buffer flags recorded for a neighbour equals the number of samples received minus the number expected (Ndft at the first update, Ns at each following).", "quantifier": "every history of buffer lengths", "why_tests_cant": "Cumulative accounting over unbounded runs.", "anchors": ["danse_toolbox/d_classes.py:DANSEvariables.process_incoming_signals_buffers"]}
{"id": "C18", "title": "Centralised buffers: each other node has its own slot", "statement": "The slot in which node q stores what node k sends is different for different k, always exists, and the slots are in increasing node order; the columns reserved for the other nodes in the stacked centralised observation are consecutive and in node order.", "quantifier": "every number of nodes and every pair", "why_tests_cant": "All sizes.", "anchors": ["danse_toolbox/d_classes.py:DANSEvariables.fill_buffers_centr"]}
{"id": "C19", "title": "Local frames are causal, exactly one frame long and zero padded at the start", "statement": "The local chunk used at time t has exactly N samples, ends at sample floor(t*fs) (minus the broadcast delay), is preceded by zeros when not enough samples exist, and never contains a later sample.", "quantifier": "every signal, time and frame length within the recorded duration", "why_tests_cant": "All boundary positions.", "anchors": ["danse_toolbox/d_base.py:local_chunk_for_update", "danse_toolbox/d_base.py:local_chunk_for_broadcast"]}
{"id": "C20", "title": "Efficient broadcasting sends each sample exactly once", "statement": "With efficient few-sample broadcasting the numbers of samples sent at successive broadcast instants are multiples of L, and consecutive broadcasts partition the node's samples with no gap or overlap.", "quantifier": "every sequence of broadcast instants and every L", "why_tests_cant": "Accumulation over the whole run.", "anchors": ["danse_toolbox/d_classes.py:DANSEvariables.get_buffer_size_for_efficient_bc"]}
{"id": "C21", "title": "Tree orientation gives each non-root node exactly one parent, one level closer to the root", "statement": "After rooting a tree network, every node appears in exactly one level, the root alone in the last; each other node has exactly one downstream neighbour, located in the next level; upstream and downstream lists are mutually consistent and together are the node's neighbours.", "quantifier": "every finite tree and every root", "why_tests_cant": "Unbounded tree shapes.", "anchors": ["siggen/classes.py:WASN.orientate", "siggen/classes.py:WASN.set_tree_root"]}
{"id": "C22", "title": "In-network sum is the sum over all nodes", "statement": "After fusion and leaf-to-root partial sums at one instant, the root's network sum equals the sum of all nodes' fused signals; after the relay every node holds the sum of the fused signals of all the other nodes.", "quantifier": "every finite rooted tree, every signal values", "why_tests_cant": "Unbounded trees; order-dependent accumulation.", "anchors": ["danse_toolbox/d_classes.py:TIDANSEvariables.ti_compute_partial_sum", "danse_toolbox/d_classes.py:TIDANSEvariables.ti_relay_innetwork_sum_upstream"]}
{"id": "C23", "title": "Spatial covariance estimates are exponentially weighted sums of the right frames", "statement": "After any sequence of frames the speech-plus-noise (noise-only) covariance equals the initial value times beta^n plus the exponentially weighted sum of the outer products of exactly the frames flagged active (inactive), and the two update counters add up to the number of frames.", "quantifier": "every VAD sequence, frame content, forgetting factor and initial value", "why_tests_cant": "Infinitely many histories.", "anchors": ["danse_toolbox/d_classes.py:DANSEvariables.spatial_covariance_matrix_update"]}
{"id": "C24", "title": "Covariance matrices stay Hermitian positive semidefinite", "statement": "If initialised Hermitian positive semidefinite and 0<=beta<=1, both covariance matrices remain so after every update.", "quantifier": "every history", "why_tests_cant": "Invariant over unbounded histories.", "anchors": ["danse_toolbox/d_classes.py:DANSEvariables.spatial_covariance_matrix_update", "danse_toolbox/d_base.py:init_covmats"]}
{"id": "C25", "title": "Filter updating starts only when enough statistics exist, and never stops again", "statement": "A node performs no filter update before it has collected strictly more active and inactive frames than the dimension of its observation vector and the configured start time has passed; once started it stays started.", "quantifier": "every frame/VAD history", "why_tests_cant": "Latch behaviour over unbounded histories.", "anchors": ["danse_toolbox/d_classes.py:DANSEvariables.check_covariance_matrices", "danse_toolbox/d_classes.py:DANSEvariables.perform_update"]}
{"id": "C26", "title": "The computed filter is the linear MMSE (multichannel Wiener) filter", "statement": "The filter computed from (Ryy, Rnn) fails exactly when Ryy is singular, otherwise it is the only solution of Ryy w = (Ryy-Rnn) e_ref; with speech and noise uncorrelated it is the unique filter with the least squared error in estimating the speech at the reference sensor. It is unaffected by a common scaling of both matrices, is zero without speech and selects the reference sensor without noise.", "quantifier": "every dimension and all matrices", "why_tests_cant": "All real-valued inputs.", "anchors": ["danse_toolbox/d_classes.py:update_w"]}
{"id": "C27", "title": "Rank-R GEVD filter: full rank is the MWF, low rank is the best low-rank speech model", "statement": "With an exact generalised eigenvalue decomposition: at full rank the GEVD filter equals the plain filter; if Ryy-Rnn has rank at most R the rank-R GEVD filter equals the plain filter; in general it is the filter obtained from the rank-R truncation of the decomposition; a rank larger than the dimension is an error.", "quantifier": "every dimension and matrix pair with exact GEVD", "why_tests_cant": "All inputs.", "anchors": ["danse_toolbox/d_classes.py:update_w_gevd"]}
{"id": "C28", "title": "Broadcast (external) filters lag the internal ones as configured", "statement": "Without relaxation or with sequential updating the broadcast filter equals the current internal filter after each update; with relaxation it remains inside the convex hull of the initial value and all internal filters computed so far, and the target changes only if the configured interval has passed.", "quantifier": "every sequence of update times and filters", "why_tests_cant": "Unbounded histories of two coupled filters.", "anchors": ["danse_toolbox/d_classes.py:DANSEvariables.update_external_filters"]}
{"id": "C29", "title": "TI-DANSE normalisation acts on the coefficient of the in-network sum of the first node only", "statement": "Under sequential updating, at updates that are performed and late enough, the coefficient of the in-network sum of node 0 becomes 1 wherever it was non-zero, all other coefficients and nodes are left as they are, and normalising twice is normalising once. (That the normalised filter points in the same direction is refuted: only the last coefficient is divided.)", "quantifier": "every filter", "why_tests_cant": "All values.", "anchors": ["danse_toolbox/d_classes.py:TIDANSEvariables.normalize_filter_coeff"]}
{"id": "C30", "title": "Filtered speech plus filtered noise equals filtered mixture", "statement": "Re-running DANSE with given filters on the clean-speech data and on the clean-noise data yields outputs that add up to the re-run on their sum, at every time sample of every node (network-wide and local estimates); and re-running on the mixture with the filters a run computed reproduces that run's output. With whole-chunk broadcasting this requires that no node's last broadcast chunk is silent in one run and not in another.", "quantifier": "every schedule, filter history and signals", "why_tests_cant": "Linearity over entire runs with feedback buffers.", "anchors": ["danse_toolbox/d_core.py:generate_signals_for_snr_computation", "danse_toolbox/d_classes.py:DANSEvariables.update_using_pregiven_filters"]}
{"id": "C31", "title": "Batch sequential DANSE updates exactly one node per batch update in round-robin order", "statement": "In batch mode with sequential updating, at batch update b only node b mod K recomputes its filter, from the statistics of its observations under the broadcast filters before that update, and all other nodes keep theirs; the nodes' numbers of turns differ by at most one; every node's iteration counter equals the number of batch updates; with simultaneous or asynchronous updating all nodes recompute; the broadcast filter after an update is the own-sensor part of the internal filter; any other updating type makes no update.", "quantifier": "every number of nodes and of batch updates", "why_tests_cant": "Unbounded iteration counts.", "anchors": ["danse_toolbox/d_core.py:danse_batch", "danse_toolbox/d_core.py:tidanse_batch"]}
{"id": "C32", "title": "Batch covariance accumulation is the average over the right frames", "statement": "Batch covariance matrices equal the (normalised) sum of outer products over exactly the frames flagged active/inactive; the centralised VAD is active whenever the VAD of any node is.", "quantifier": "every VAD pattern and data", "why_tests_cant": "All inputs.", "anchors": ["danse_toolbox/d_classes.py:update_covmats_batch"]}
{"id": "C33", "title": "Overlap-add reconstruction", "statement": "With 50% overlap and equal analysis and synthesis windows, when a node's filter selects one of its sensors the chunks it broadcasts are exactly that sensor's samples from the second chunk on; the synthesised output equals the sensor signal times the sum of the overlapping window products at every sample. With three or more overlapping frames whole-chunk broadcasting always fails with a ValueError (defect).", "quantifier": "every signal, frame geometry and window pair with the constant-overlap property", "why_tests_cant": "All signals.", "anchors": ["danse_toolbox/d_base.py:danse_compression_whole_chunk", "danse_toolbox/d_classes.py:DANSEvariables.get_desired_signal"]}
{"id": "C34", "title": "Few-sample compression equals linear convolution", "statement": "The L samples broadcast in few-samples mode equal samples of the full linear convolution of the node's signals with the time-domain filters, and for an all-pass filter they are exactly the L newest samples of the frame (up to the window gain). The conv-type output uses the same time-domain filter but is one sample late (defect).", "quantifier": "every signal, filter and L", "why_tests_cant": "All inputs.", "anchors": ["danse_toolbox/d_base.py:extract_few_samples_from_convolution", "danse_toolbox/d_base.py:danse_compression_few_samples"]}
{"id": "C35", "title": "Spectrum-to-time conversion yields a Hermitian-symmetric full spectrum and rejects wrong sizes", "statement": "A half spectrum is accepted iff it has n/2+1 bins with n even and positive; it is extended to n bins with conjugate symmetry (real DC and Nyquist), the inverse DFT is real, and going to the frequency domain and back is the identity on real frames.", "quantifier": "every even n and spectrum", "why_tests_cant": "All inputs.", "anchors": ["danse_toolbox/d_base.py:back_to_time_domain"]}
{"id": "C36", "title": "Network topologies are symmetric with no self-neighbours", "statement": "For every accepted topology, q is in k's neighbour list iff k is in q's, no node is its own neighbour, neighbour lists are increasing; fully-connected, ad-hoc (centre distance below the communication distance) and user-defined (entries 1) links are as documented, malformed user-defined matrices and unknown types are rejected. Refuted: one list per node when the last node has no sensor; connectedness of ad-hoc networks.", "quantifier": "every size and connectivity matrix", "why_tests_cant": "All matrices.", "anchors": ["siggen/utils.py:get_topo"]}
{"id": "C37", "title": "Frame-wise VAD uses the configured proportion on every complete frame", "statement": "Each complete frame is active iff at least the configured proportion of its samples is active, incomplete frames are never active, and the number of decisions is the number of complete frames plus at most one. Refuted: exactly one decision per complete frame.", "quantifier": "every VAD sequence, frame length and hop", "why_tests_cant": "All boundary alignments.", "anchors": ["siggen/classes.py:get_vad_per_frame", "siggen/classes.py:WASN"]}
{"id": "C38", "title": "Sample-wise energy VAD is the thresholded centred window energy", "statement": "The sample-wise VAD has one 0/1 value per sample, which is 1 iff the mean energy of the centred window clipped to the signal exceeds the threshold; raising the threshold never turns a sample on. Refuted: windows shorter than two samples, for which the VAD is never active.", "quantifier": "every signal, window and threshold", "why_tests_cant": "All inputs.", "anchors": ["siggen/utils.py:oracleVAD", "siggen/utils.py:compute_VAD"]}
{"id": "C39", "title": "Resampling for SRO keeps the signal length and a uniform clock", "statement": "The SRO-resampled signal and its time stamps have exactly the length of the input, time stamps are i/fsSRO for every index, and the samples are the resampler's cut or zero-padded, whatever the resampler's output length (>=2).", "quantifier": "every signal and resampler output length", "why_tests_cant": "All length relations.", "anchors": ["siggen/utils.py:resample_for_sro"]}
{"id": "C40", "title": "Sensor-to-node bookkeeping is a partition", "statement": "The sensor-to-node map assigns every sensor to the node that owns it, nodes owning consecutive blocks; replacing a sensor by noise hits exactly the requested sensor. Refuted: the reference-microphone SNR option selects the microphone of that index.", "quantifier": "every list of sensor counts", "why_tests_cant": "All sizes.", "anchors": ["siggen/classes.py:WASNparameters.__post_init__", "siggen/utils.py:get_raw_source_signals", "danse_toolbox/d_core.py:prep_for_danse"]}
{"id": "C41", "title": "Noise is added at exactly the requested SNR", "statement": "After adding self-noise the ratio of signal power to added-noise power equals 10^(SNR/10), noise sources scaled with respect to a reference microphone are exactly SNR dB below the wet target there, and dry unit-power sources exactly SNR dB below the target.", "quantifier": "every signal/noise with non-zero power and every SNR", "why_tests_cant": "All reals.", "anchors": ["siggen/utils.py:apply_noise"]}
{"id": "C42", "title": "Short source files are looped to the requested length", "statement": "A non-empty source shorter than requested is repeated periodically to exactly the requested number of samples; a longer one is truncated.", "quantifier": "every source and length", "why_tests_cant": "All lengths.", "anchors": ["siggen/utils.py:get_raw_source_signals"]}
{"id": "C43", "title": "Export folders are never wiped without consent", "statement": "A file disappears from the export folder only when exports are enabled, overwriting was not requested in the parameters, and the first valid answer to the prompt was y/Y. If the first valid answer is n/N the run is refused and the folder is unchanged; the check fails only when the path is a file or the input ends. (With writeOverPrevious the announced overwriting keeps every old file.)", "quantifier": "every folder state and answer sequence", "why_tests_cant": "All answer sequences.", "anchors": ["danse_toolbox/d_classes.py:ExportParameters.check_export_folder", "danse_toolbox/d_utils.py:wipe_folder"]}
{"id": "C44", "title": "Loading a configuration overlays exactly the given keys", "statement": "After loading a YAML mapping into a parameter object every value given at any depth is what the object holds (bracketed strings parsed, lists converted to arrays exactly for array fields), every field not mentioned keeps its value, unknown sections and lists under unknown names are rejected. (Refuted: a misspelt name with a plain value is silently accepted.)", "quantifier": "every mapping and default object", "why_tests_cant": "All mappings.", "anchors": ["danse_toolbox/dataclass_methods.py:load_from_yaml"]}
{"id": "C45", "title": "Parameter comparison is an equivalence", "statement": "Comparing two parameter objects answers equal exactly when every attribute of the first, at any depth, is in the second and agrees (arrays up to tolerance); it is reflexive. (Symmetry refuted: an extra attribute of the second object is ignored, of the first raises; tolerance is one-sided.)", "quantifier": "every pair", "why_tests_cant": "All pairs.", "anchors": ["danse_toolbox/dataclass_methods.py:dataclasses_equal"]}
{"id": "C46", "title": "Saved objects are found again by load", "statement": "After any sequence of saves, loading a class from a folder yields the object of that class last saved there as a pickle, re-initialised, whichever data type is asked for, and a ValueError if there is none; saving touches only the two files of that class. (Refuted: the JSON export always raises, a JSON file cannot be loaded, an unknown export type writes nothing loadable and reports success.)", "quantifier": "every combination of formats and folder contents", "why_tests_cant": "All folder states.", "anchors": ["danse_toolbox/dataclass_methods.py:save", "danse_toolbox/dataclass_methods.py:load"]}
{"id": "C47", "title": "Exported audio is an undistorted scaled copy", "statement": "A signal exported as 16-bit audio is a scaled copy of the signal: it never wraps around, louder samples stay louder, and the peak becomes 16383. (Holds exactly for signals whose negative peak is less than 65538/32767, about 2.0001, times the positive peak. Refuted otherwise: deeper negative peaks wrap to positive values, all-negative signals are exported with inverted sign, and silence becomes NaN.)", "quantifier": "every signal", "why_tests_cant": "All signals.", "anchors": ["danse_toolbox/d_post.py:normalize_toint16"]}
{"id": "C48", "title": "Speech-enhancement metrics use the user's fwSNRseg exponent", "statement": "The gamma given by the user is the exponent used by the frequency-weighted segmental SNR, frames overlap by 75 %, and frame values lie within [0, 35] dB. (The bound holds. Refuted: gamma is bound to the overlap parameter, the exponent is always 0.2; gamma >= 1 gives a non-positive hop.)", "quantifier": "every gamma and frame length", "why_tests_cant": "Any unit test with the default value passes.", "anchors": ["danse_toolbox/d_eval.py:get_metrics", "danse_toolbox/d_eval.py:get_fwsnrseg"]}
{"id": "C49", "title": "Dynamic metrics visit every complete chunk once and terminate", "statement": "Dynamic metric computation terminates, evaluates exactly the complete chunks of the signal in order, never writes outside its result arrays, and never raises its emergency stop (proved for overlap 0 or of at least one sample). Refuted: with an overlap of less than one sample it can raise IndexError; with 50 % overlap the last reported value is a spurious 0; the number of time stamps differs from the number of values; the dynamic SNR uses the VAD as noise signal.", "quantifier": "every signal length, chunk size and overlap < 1", "why_tests_cant": "All geometry combinations.", "anchors": ["danse_toolbox/d_eval.py:get_dynamic_metric", "danse_toolbox/d_eval.py:DynamicMetric"]}
{"id": "C50", "title": "Delay buffer delays by exactly its length minus one", "statement": "After any history of writes and clears, reading returns the item written length-1 writes before the last one (zero before that). Refuted: the returned frame is a view whose contents the next write replaces.", "quantifier": "every length and write history", "why_tests_cant": "Unbounded histories.", "anchors": ["dxcpphat/delay_buffer.py:DelayBuffer"]}
{"id": "C51", "title": "Online resampler: valid windows, exact integer compensation, linearity", "statement": "For every SRO/STO history the two-block window drawn from the input buffer lies inside the buffer and has the right length; the fractional rest is at most half a sample; without saturation window and rest realise exactly the accumulated shift; with saturation the shift is unchanged and a warning is printed once; the accumulated shift stays within one block; a constant integer offset of less than a block is compensated exactly with a latency of two blocks for every signal; resampling is linear. Refuted: a shift of exactly +1 block, which would fit, is rejected.", "quantifier": "every history of SRO values", "why_tests_cant": "Unbounded accumulation.", "anchors": ["dxcpphat/online_resampler.py:OnlineResampler"]}
{"id": "C52", "title": "Closed-loop SRO estimates are bounded", "statement": "The simple controller's estimate always remains within [-100,100] ppm and otherwise integrates a hundredth of the residual; the IMC controller's estimate is zero during its start delay and while inactive, and bounded residuals give bounded estimates (stability, explicit gain). Refuted: the IMC controller has no ppm limit; the simple controller keeps integrating when activity is 0.", "quantifier": "every sequence of residual estimates", "why_tests_cant": "Unbounded histories.", "anchors": ["dxcpphat/sro_estimation.py:CL_DXCPPhaT_Simple"]}
{"id": "C53", "title": "SRO estimator: sliding window, schedule and comparison distance", "statement": "After each input frame the estimator's buffer holds the most recent FFT-size samples, the estimation step is executed exactly once per FFT shift worth of frames, and each reported estimate is the function of the input history given by the specification (comparison of averages exactly AccumTime_B_NumFr steps apart, 0 until the container is full and settled). Refuted: frames longer than the FFT shift disable the estimator silently; the second average starts from 0.", "quantifier": "every frame sequence", "why_tests_cant": "Unbounded histories.", "anchors": ["dxcpphat/sro_estimation.py:DXCPPhaT"]}
{"id": "C54", "title": "Oracle SRO compensation is exact, linear in the number of updates, and only turns phases", "statement": "With oracle SROs the shift compensated for neighbour q at the i-th update is minus i times (SRO_q - SRO_k)*1e-6*Ns, plus the accumulated sample-drift flags; the node's own channels are not shifted; the compensation keeps the magnitude of every bin, an integer shift is exactly a circular delay of the frame, and with the flags of the buffers the misalignment that remains is the constant -N*(SRO_q-SRO_k)*1e-6 plus a second-order term that is zero when node k has no offset. Without compensation nothing is shifted.", "quantifier": "every number of updates, SRO values, flag history and buffer history", "why_tests_cant": "Unbounded accumulation.", "anchors": ["danse_toolbox/d_classes.py:DANSEvariables.compensate_sros", "danse_toolbox/d_classes.py:DANSEvariables.build_phase_shifts_for_srocomp"]}
{"id": "C55", "title": "Each neighbour's sample-drift flag is applied to that neighbour's channels", "statement": "Full-sample drift compensation of the centralised estimate is applied to exactly the channels of the node whose buffer drifted. This holds exactly when the updating node is the last one or all nodes from it on have a single sensor (refuted otherwise: other channels, even the node's own, are shifted). An update is skipped exactly when a flag is not a number.", "quantifier": "every sensor configuration, number of updates and flag history", "why_tests_cant": "Depends on unequal sensor counts.", "anchors": ["danse_toolbox/d_classes.py:DANSEvariables.compensate_sros"]}
{"id": "C56", "title": "The filter in use only changes when an update is made", "statement": "After any history of update events the filter a node uses for its desired-signal estimate is the one computed at its last performed update, or the configured initial filter if none has been performed; skipped, bypassed or not-yet-allowed updates leave it unchanged.", "quantifier": "every history of frames, VAD decisions, bypass flags and start times, every initialisation type that is constant over iterations", "why_tests_cant": "The filter array is preallocated per iteration; whether a stale initial entry can reappear depends on the whole history.", "anchors": ["danse_toolbox/d_classes.py:DANSEvariables.perform_update", "danse_toolbox/d_classes.py:DANSEvariables.update_and_estimate", "danse_toolbox/d_base.py:init_complex_filter"]}
{"id": "C57", "title": "The forgetting factor has the configured half-life", "statement": "With the forgetting factor derived from the configured half-life, the weight of a frame in the exponential average is exactly halved each time the half-life elapses, whatever the sampling rate and hop.", "quantifier": "all positive half-lives, sampling rates and hop sizes, all frames", "why_tests_cant": "Relation between real parameters for all values.", "anchors": ["danse_toolbox/d_core.py:prep_for_danse"]}
{"id": "C58", "title": "The centralised filters are a fixed point of batch DANSE", "statement": "For a single source (rank-one speech covariance) seen by all nodes: if every node broadcasts its part of its centralised filter, any node's update yields exactly its centralised filter; the state in which all nodes use them is kept by any number of batch updates in every updating mode and with any relaxation, the outputs equal the centralised outputs, and no update fails.", "quantifier": "all networks, sensor counts, data, numbers of updates, updating types and relaxation settings", "why_tests_cant": "Equality for all data and all numbers of updates.", "anchors": ["danse_toolbox/d_core.py:danse_batch", "danse_toolbox/d_batch.py:BatchDANSEvariables", "danse_toolbox/d_base.py:get_y_tilde_batch", "danse_toolbox/d_classes.py:update_w"]}
{"id": "C59", "title": "Sequential batch DANSE converges to the centralised solution with non-increasing error", "statement": "For a single source, sequential batch DANSE started from any filters, as long as no update fails: each node's network-wide filter converges to its centralised filter, all outputs converge to the centralised outputs if every node contributes, and the error of the updating node relative to the speech level at its reference sensor never increases from one update to the next and is never below the centralised error.", "quantifier": "all networks, data with rank-one speech covariance, initial filters, and all infinite sequences of updates", "why_tests_cant": "A limit statement over infinite runs for all inputs.", "anchors": ["danse_toolbox/d_core.py:danse_batch", "danse_toolbox/d_batch.py:BatchDANSEvariables", "danse_toolbox/d_base.py:get_y_tilde_batch"]}
{"id": "C60", "title": "Sequential batch TI-DANSE converges to the centralised solution", "statement": "In the batch simulation of TI-DANSE with sequential node-updating, exactly one node (round robin) recomputes its filter at each iteration, from covariances of its own channels and the normalised in-network sum, every broadcast filter equals the internal filter, and for a single desired source and a common VAD the network-wide filter of every node at its updates converges to that node's centralised filter, the relative error of the updating node never growing; a run started from the default initial filter, however, divides by a zero coefficient at the first iteration.", "quantifier": "all networks of two or more nodes, sensor counts, signals, VADs, initial filters and iteration counts for which every update is well defined", "why_tests_cant": "Convergence is a statement about an infinite sequence of iterates for arbitrary covariance matrices and initial filters.", "anchors": ["danse_toolbox/d_core.py:tidanse_batch", "danse_toolbox/d_base.py:get_y_tilde_batch", "danse_toolbox/d_batch.py:BatchTIDANSEvariables"]}
{"id": "C61", "title": "Metric start and end times are those of the requested speech event", "statement": "The key time 'end_1st_utterance' is the start, and 'beginning_2nd_utterance' the end, of the first pause between two speech segments that is at least the minimum duration; 'beginning_1st_utterance' is the first active sample; an IndexError is raised iff there is no such pause (sample). Refuted: a key time exists whenever there is speech.", "quantifier": "all 0/1 VADs of at least two samples, sampling rates, minimum durations", "why_tests_cant": "Quantifies over all VAD sequences, including ones with arbitrarily many short pauses to jump over.", "anchors": ["siggen/classes.py:get_key_time", "siggen/classes.py:WASN.get_metrics_key_time"]}
{"id": "C62", "title": "A VAD loaded from file is the VAD that would be computed", "statement": "In any sequence of VAD requests sharing one folder, every request returns the VAD that it would compute itself, if all requests use one energy factor and the signal hash has no collision. Refuted when the energy factor changes between requests on quiet signals (the file name keeps three decimals of the threshold).", "quantifier": "all sequences of requests on a shared folder", "why_tests_cant": "Depends on the whole history of files written by earlier runs.", "anchors": ["siggen/utils.py:get_or_load_vad", "siggen/utils.py:array_id"]}
{"id": "C63", "title": "Sensor signals are target component plus noise component", "statement": "The signal of the first sensor of every node is the sum of the clean-speech and clean-noise signals stored for it, when resampling is additive and diffuse noise and SROs are not combined. Refuted for other sensors (they carry the first sensor's self-noise) and for diffuse noise with SRO.", "quantifier": "all nodes, sensor counts, signals, self-noise draws and SNRs", "why_tests_cant": "Universal statement over all signals and random draws.", "anchors": ["siggen/utils.py:build_wasn", "siggen/utils.py:apply_self_noise"]}
{"id": "C64", "title": "Regular pauses silence exactly the requested segments", "statement": "A random source with predefined pauses is zero on every pause interval and untouched elsewhere; pause intervals start duration+spacing apart.", "quantifier": "all signals, pause durations, spacings and sampling rates", "why_tests_cant": "All combinations of non-integer durations and truncations.", "anchors": ["siggen/utils.py:generate_rand_signal"]}
{"id": "C65", "title": "Parameter objects are independent of each other", "statement": "Loading a configuration file into one parameter object should not change another one, and parameters not mentioned in the file should have their documented defaults. (Refuted: all parameter objects of a process share their nested sections, so all of them always agree on every nested parameter, and values from earlier files persist.) What holds: a load gives all objects the file's nested values and leaves every other nested value as it was.", "quantifier": "every sequence of object creations and file loads in one process", "why_tests_cant": "Tests with a single parameter object cannot see it; the interference depends on the whole history of the process.", "anchors": ["danse_toolbox/d_classes.py:TestParameters", "danse_toolbox/dataclass_methods.py:load_from_yaml"]}
{"id": "C66", "title": "Reported SNRs are power ratios over the evaluation window", "statement": "The SNR before/after enhancement is 10 log10 of the ratio of the mean speech and noise powers over the evaluation window; the improvement is their difference, is 0 for a common gain and increases when residual noise decreases at equal speech power. (Refuted: improvements of the local and centralised estimates are reported as 0 whatever the estimates; the VAD is ignored.)", "quantifier": "all signals, windows, VADs and optional local/centralised estimates", "why_tests_cant": "Universal over all signals and evaluation windows.", "anchors": ["danse_toolbox/d_eval.py:get_metrics", "danse_toolbox/d_eval.py:get_snr"]}
{"id": "C67", "title": "Peak search is always defined and within the search range", "statement": "The SRO and STO estimates derived from a correlation are always defined (no NaN), use the first maximum, refine it by at most half a step, are exact on parabolas, and lie within the searched range. Refuted: the SRO range exceeds the user's maximum and is asymmetric; the TDOA correction is dropped at the border.", "quantifier": "all correlation functions, upsampling factors and ranges", "why_tests_cant": "Universal over all real-valued correlations, including ties and plateaus.", "anchors": ["dxcpphat/sro_estimation.py:DXCPPhaT._stateupdate"]}
{"id": "C68", "title": "Phase transform normalisation", "statement": "Every bin of the phase-transformed cross-spectrum and of all its recursive averages is within the unit disc, on the unit circle above the minimum magnitude; it is independent of the channel levels above that minimum and is conjugated when channels are exchanged. Refuted below the minimum magnitude.", "quantifier": "all complex spectra, levels, smoothing constants in [0,1] and history lengths", "why_tests_cant": "Universal over complex values and unbounded averaging histories.", "anchors": ["dxcpphat/sro_estimation.py:DXCPPhaT._stateupdate"]}
{"id": "C69", "title": "Closed loop keeps both channels aligned", "statement": "In the closed loop the reference channel is delayed by exactly two frames whatever the estimator does, and while the SRO estimate is zero the other channel is delayed by exactly two frames too. Refuted: the caller's input array is overwritten (zeros on the first call); returned frames change at the next call.", "quantifier": "every frame history, estimator behaviour and start delay", "why_tests_cant": "Unbounded histories and arbitrary estimator feedback.", "anchors": ["dxcpphat/sro_estimation.py:CL_DXCPPhaT.process", "dxcpphat/sro_estimation.py:CL_DXCPPhaT_Simple.process"]}
{"id": "C70", "title": "Data-driven SRO estimates: schedule, accumulation and failure modes", "statement": "With coherence-drift estimation, estimates are made every estEvery updates after startAfterNups; the shift compensated at an update is minus Ns times the sum of alphaEps*r/(1+r) (closed loop) or r/(1+r) (open loop) over the estimates made so far, plus flags. The documented closed-loop recursion and compensation between estimates do not hold (refuted), and the accepted options DXCPPhaT and network-wide fail at the first update.", "quantifier": "every history of estimator outputs and flags, every schedule", "why_tests_cant": "Unbounded histories and all schedules; a wrong accumulation looks plausible in short runs.", "anchors": ["danse_toolbox/d_classes.py:DANSEvariables.update_sro_estimates", "danse_toolbox/d_classes.py:DANSEvariables.build_phase_shifts_for_srocomp", "danse_toolbox/d_base.py:CohDriftParameters"]}
{"id": "C71", "title": "Coherence-drift products carry exactly the drift between two frames", "statement": "For frames related by the same transfer functions up to an extra delay, the product handed to the lag search is the spectrum of a unit impulse at exactly that lag corrected by the buffer flags; averaged products stay spectra of real sequences and are fixed by repeated equal rounds. The least-squares variant returns the offset times 2P(P+1)/((P-1)(2P-1)), so it is never exact (refuted).", "quantifier": "every FFT size, delay, flags, transfer function and number of rounds", "why_tests_cant": "All spectra and sizes; the bias factor tends to one for large sizes and hides in tolerances.", "anchors": ["danse_toolbox/d_sros.py:cohdrift_sro_estimation", "danse_toolbox/d_classes.py:DANSEvariables.update_sro_estimates"]}
{"id": "C72", "title": "An online run is causal", "statement": "Whatever the nodes compute from their observations, all results of a DANSE run up to a time (outputs, filters, buffers, errors) depend only on the sensor samples recorded up to that time, and output samples before the frames of later updates are final.", "quantifier": "every network, schedule, filter-update rule, pair of recordings and time", "why_tests_cant": "Ranges over all continuations of a recording, all schedules and all filter-update rules.", "anchors": ["danse_toolbox/d_core.py:danse", "danse_toolbox/d_classes.py:DANSEvariables.broadcast", "danse_toolbox/d_classes.py:DANSEvariables.update_and_estimate", "danse_toolbox/d_base.py:local_chunk_for_update"]}
{"id": "C73", "title": "A node is influenced only through network links", "statement": "Nodes in different connected components do not influence each other in any way during a DANSE run; with fixed filters the output of a node depends only on its own signals and on the signals and broadcast filters of its direct neighbours.", "quantifier": "every network, closed set of nodes, schedule, filter-update rule and signals", "why_tests_cant": "Non-interference quantifies over pairs of runs and all networks.", "anchors": ["danse_toolbox/d_core.py:danse", "danse_toolbox/d_classes.py:DANSEvariables.fill_buffers", "danse_toolbox/d_classes.py:DANSEvariables.update_and_estimate"]}
{"id": "C74", "title": "Output with linear-convolution synthesis uses the neighbours' signals", "statement": "Refuted: with desSigProcessingType='conv' the DANSE output of a node depends on its own sensors only, whatever filters were computed and whatever the neighbours sent (only the local channels are passed to the synthesis).", "quantifier": "every network, schedule, filters and signals", "why_tests_cant": "A test sees plausible outputs; that no signal of any neighbour can change them is a statement about all pairs of runs.", "anchors": ["danse_toolbox/d_classes.py:DANSEvariables.get_desired_signal", "danse_toolbox/d_base.py:get_desired_sig_chunk"]}
{"id": "C75", "title": "End-to-end pass-through of the reference sensor", "statement": "In a complete run in which a node's filters select its reference sensor, its output at every sample is that sensor's sample times the sum over its update frames of the window products; with regular updates and windows that satisfy the overlap-add condition the output equals the sensor signal exactly.", "quantifier": "every network, schedule, windows, DFT size and hop, and whatever the neighbours do", "why_tests_cant": "Universal over schedules, windows and signals; gaps and gain errors depend on the update instants.", "anchors": ["danse_toolbox/d_core.py:danse", "danse_toolbox/d_classes.py:DANSEvariables.get_desired_signal", "danse_toolbox/d_base.py:get_desired_sig_chunk"]}
{"id": "C76", "title": "End-to-end delivery of broadcast samples", "statement": "While a node has its initial broadcast filter (or is a single-sensor node without fusion) and broadcasts every L samples, the frame that each neighbour holds of it at an update consists of the last N samples of its reference sensor that were sent, in order, without loss, repetition or delay.", "quantifier": "every network, schedule of other events, L, DFT size and number of broadcasts", "why_tests_cant": "Unbounded histories and all interleavings with the events of other nodes.", "anchors": ["danse_toolbox/d_classes.py:DANSEvariables.broadcast", "danse_toolbox/d_base.py:danse_compression_few_samples", "danse_toolbox/d_classes.py:DANSEvariables.process_incoming_signals_buffers"]}
{"id": "C77", "title": "Filters take effect at the update that computes them, and observations are the frames of that update", "statement": "In an online run the filter computed at the i-th update of a node is used in the output of exactly that update, and its broadcast filter in exactly the broadcasts up to the next update; it is computed from the observations of the updates so far, one per update, each holding the frames that end at that update and the buffer flags. A run that computes its filters is the same as the run with those filters given.", "quantifier": "every network, schedule, filter-update rule, number of updates and signals", "why_tests_cant": "An off-by-one in the iteration index shifts all filters by one update and changes results slightly in every run; the statement is about all histories.", "anchors": ["danse_toolbox/d_core.py:danse", "danse_toolbox/d_classes.py:DANSEvariables.update_and_estimate", "danse_toolbox/d_classes.py:DANSEvariables.update_using_pregiven_filters", "danse_toolbox/d_classes.py:DANSEvariables.build_ytilde"]}
{"id": "C78", "title": "The schedule of a synchronous network and what a run with it delivers", "statement": "For nodes with the same exactly inferred clock and n samples each, every node updates at the samples ceil(N/Ns)*Ns, +Ns, ... and broadcasts every L samples from L on (or with its updates for whole chunks), and nothing else is scheduled. Run with that schedule, a node whose filters select its reference sensor outputs that sensor exactly from the first update frame to within two frames of the end, and at its update at sample i*Ns it holds of each neighbour the frame that ends at sample floor(i*Ns/L)*L.", "quantifier": "every number of nodes, recording length, DFT size, hop, broadcast length, sampling frequency and signals", "why_tests_cant": "Off-by-one errors in the schedule depend on the divisibility of lengths and hops; the run property composes unbounded schedules with all signals.", "anchors": ["danse_toolbox/d_base.py:initialize_events", "danse_toolbox/d_base.py:prep_evmat_build", "danse_toolbox/d_base.py:build_events_matrix", "danse_toolbox/d_core.py:danse"]}
{"id": "C79", "title": "Sampling frequencies are inferred correctly from time stamps", "statement": "The sampling frequency inferred from regular time stamps is within a stated relative accuracy of the true one and exact when it divides a power of ten; jitter larger than the rounding step is rejected; simultaneous updating requires equal frequencies. Refuted: it is not exact at 48 kHz (48000.768), so the frames read drift away; sampling rate offsets of a few ppm are not seen; the comparison indexes nodes with a sensor index.", "quantifier": "every sampling frequency, number of samples and jitter", "why_tests_cant": "The inferred frequency depends on decimal rounding; common test frequencies (8 or 16 kHz) are exact.", "anchors": ["danse_toolbox/d_base.py:check_clock_jitter", "danse_toolbox/d_base.py:base_event_checks"]}
{"id": "C80", "title": "An online run on a regular recording completes without buffer errors", "statement": "With synchronous clocks, L <= Ns samples per broadcast and a frame long enough for what arrives between two updates, the schedule is made and the whole online run over it ends without an exception, whatever the signals and the filter-update rule; when L divides Ns and Ns divides N every buffer flag of every update of every node is zero.", "quantifier": "every number of nodes, channels, samples, DFT size, hop, broadcast length, signals and filter-update rule", "why_tests_cant": "Absence of exceptions over unbounded runs and all parameter combinations.", "anchors": ["danse_toolbox/d_core.py:danse", "danse_toolbox/d_classes.py:DANSEvariables.broadcast", "danse_toolbox/d_classes.py:DANSEvariables.update_and_estimate", "danse_toolbox/d_classes.py:DANSEvariables.process_incoming_signals_buffers"]}
{"id": "C81", "title": "An online TI-DANSE run computes what direct exchange would, in any trees", "statement": "The online TI-DANSE main loop, run on a schedule of the event matrix (fusion, partial sums from the leaves to the root, relays from the root to the leaves, updates, trees replaced during the run), ends exactly when and exactly in the state in which nodes would end that exchange their signals directly: at each exchange every node fuses its signals and obtains the sum of the fused frames of all the others. Two runs with the same signals and times but other trees, formed at other times, end both with an error or both with the same outputs, filters, observations and in-network sums.", "quantifier": "every number of nodes, tree sequence, formation times, signals, filter-update rule, initial filters, DFT size and hop, and (b) every pair of tree sequences", "why_tests_cant": "The claim is over all trees and all interleavings of re-rooting with the exchange of signals; a test sees a few networks.", "anchors": ["danse_toolbox/d_core.py:tidanse", "danse_toolbox/d_classes.py:TIDANSEvariables.ti_fusion", "danse_toolbox/d_classes.py:TIDANSEvariables.ti_compute_partial_sum", "danse_toolbox/d_classes.py:TIDANSEvariables.ti_relay_innetwork_sum_upstream", "danse_toolbox/d_classes.py:TIDANSEvariables.ti_update_and_estimate", "danse_toolbox/d_classes.py:TIDANSEvariables.update_up_downstream_neighbors"]}
{"id": "C82", "title": "TI-DANSE from time stamps to outputs is topology-independent", "statement": "For nodes with the same clock, initialize_events succeeds for TI-DANSE in any network: all nodes fuse, send and relay at the same times (every Ns samples from N on, or every L samples) and update every Ns samples from two frames (whole chunks) or one frame (few samples) on; the trees are rooted along the update sequence. The run over that schedule computes what direct exchange would, and its outputs depend neither on the network, nor on how it is pruned to trees, nor on whether it is re-rooted at every update.", "quantifier": "every number of nodes, network, pruning, recording length, sampling frequency, DFT size, hop, signals and filter-update rule", "why_tests_cant": "Independence of the topology is a statement about all pairs of networks over unbounded runs.", "anchors": ["danse_toolbox/d_base.py:initialize_events", "danse_toolbox/d_base.py:prep_evmat_build", "danse_toolbox/d_core.py:tidanse"]}
{"id": "C83", "title": "TI-DANSE nodes hear time-aligned frames of each other", "statement": "In an online TI-DANSE run of synchronous nodes, at each of its updates every node works on N samples of its own sensors and on the sum of the N samples of the transmitted sensors of all the other nodes, both ending at the same sample: (a) with few-sample broadcasts of Ns samples while the reference sensor is transmitted, (b) with whole-chunk broadcasts with frames of two hops while the fusion vectors select a sensor; the number of updates is the one the schedule asks for, none is missing.", "quantifier": "every number of nodes, network, pruning and re-rooting, recording length, DFT size, hop, signals and filter-update rule", "why_tests_cant": "Alignment at every update of unbounded runs in all networks; a test samples a few updates of a few networks.", "anchors": ["danse_toolbox/d_core.py:tidanse", "danse_toolbox/d_classes.py:TIDANSEvariables.ti_fusion", "danse_toolbox/d_classes.py:TIDANSEvariables.ti_update_and_estimate", "danse_toolbox/d_base.py:initialize_events"]}
{"id": "C84", "title": "TI-DANSE runs end normally, exactly under stated conditions", "statement": "(a) For synchronous nodes with an even frame length, Ns samples per few-sample broadcast (or whole chunks with frames of two hops), filters of one value per bin and, for whole chunks, non-zero weights on the in-network sum once a node has started, the schedule is made and the whole run ends without an exception or NaN, with outputs as long as the recording. (b)-(d) Each condition matters: the default filter initialisation divides by zero in sequential whole-chunk runs; few-sample broadcasts shorter than Ns end in ValueError; longer ones lose samples.", "quantifier": "every number of nodes, network, pruning, recording length, DFT size, hop, signals and filter-update rule (a, b)", "why_tests_cant": "Absence of exceptions over unbounded runs and all networks.", "anchors": ["danse_toolbox/d_core.py:tidanse", "danse_toolbox/d_classes.py:TIDANSEvariables.ti_fusion", "danse_toolbox/d_classes.py:TIDANSEvariables.ti_compression_whole_chunk", "danse_toolbox/d_classes.py:TIDANSEvariables.ti_compression_few_samples", "danse_toolbox/d_classes.py:TIDANSEvariables.ti_build_ytilde", "danse_toolbox/d_base.py:init_complex_filter"]}
{"id": "C85", "title": "Speech-only and noise-only re-runs of TI-DANSE are components of its output", "statement": "TI-DANSE re-run with given filters is linear in the signals: the outputs for the speech and for the noise add up, sample by sample, to the outputs for the mixture, for any schedule and trees. With few-sample broadcasts the re-run with the filters a run wrote reproduces that run, so the outputs of the component runs add up to the output whose signal-to-noise ratio is reported. With whole-chunk broadcasts this is false: the re-runs do not divide the fusion vectors by the weight on the in-network sum. With few-sample broadcasts that weight is never used for fusion.", "quantifier": "every number of nodes, schedule, tree sequence, signals, filters and filter-update rule", "why_tests_cant": "Linearity and reproduction over all signals, schedules and adaptation rules.", "anchors": ["danse_toolbox/d_core.py:generate_signals_for_snr_computation", "danse_toolbox/d_core.py:tidanse", "danse_toolbox/d_classes.py:DANSEvariables.update_using_pregiven_filters", "danse_toolbox/d_classes.py:TIDANSEvariables.ti_compression_whole_chunk", "danse_toolbox/d_classes.py:TIDANSEvariables.ti_compression_few_samples"]}
{"id": "C86", "title": "Observations of the centralised and single-sensor estimates", "statement": "At every update of a node, in whatever order nodes broadcast and update, its centralised observation has one frame per sensor of the network, in the order of the nodes and of their sensors: its own current frames, and of every other sensor the last DFTsize raw samples that were sent. The single-sensor-broadcast observation consists of its own frames and the same of the first sensor of every other node. The flags count the samples received since the last update relative to the hop (to the frame, at the first update). With one sensor per node both observations have the same frames.", "quantifier": "every schedule, node, number of sensors, signals, frame and hop sizes", "why_tests_cant": "Holds for every schedule, number of nodes and sensors and every signal.", "anchors": ["danse_toolbox/d_classes.py:DANSEvariables.pre_fill_buffers_centralised", "danse_toolbox/d_classes.py:DANSEvariables.fill_buffers_centr", "danse_toolbox/d_classes.py:DANSEvariables.process_incoming_signals_buffers_centr", "danse_toolbox/d_classes.py:DANSEvariables.build_ycentr", "danse_toolbox/d_classes.py:DANSEvariables.build_yssbc"]}
{"id": "C87", "title": "The centralised observation is that of a single device", "statement": "For synchronous nodes and the schedule of the code: with whole-chunk broadcasts every node has, at its update at sample i Ns, of every sensor of the network the frame that ends at sample i Ns - (DFTsize - Ns), so all nodes have the same observation, as a single device recording all sensors would. With efficient few-sample broadcasts of L samples the nodes broadcast at the last multiple of L samples before each update, and the frames of the others end at the last multiple of L: the same holds if L divides Ns, else they are up to L - 1 samples behind the own ones.", "quantifier": "every number of nodes and sensors, recording length, sampling frequency, DFT size, hop, L, updating strategy", "why_tests_cant": "Holds for every schedule, number of nodes and sensors and every signal.", "anchors": ["danse_toolbox/d_classes.py:DANSEvariables.pre_fill_buffers_centralised", "danse_toolbox/d_classes.py:DANSEvariables.fill_buffers_centr", "danse_toolbox/d_classes.py:DANSEvariables.process_incoming_signals_buffers_centr", "danse_toolbox/d_classes.py:DANSEvariables.build_ycentr", "danse_toolbox/d_classes.py:DANSEvariables.build_yssbc", "danse_toolbox/d_base.py:prep_evmat_build", "danse_toolbox/d_classes.py:DANSEvariables.get_buffer_size_for_efficient_bc"]}
{"id": "C88", "title": "Centralised and single-sensor re-runs on speech and noise add up", "statement": "The centralised and single-sensor estimates of the re-runs on the clean speech and on the clean noise with given filters add up, at every sample and for every schedule, to those of the run on the sum, with whole-chunk broadcasts as well.", "quantifier": "every schedule, signals, filters and options for which the three runs complete", "why_tests_cant": "Holds for every schedule, number of nodes and sensors and every signal.", "anchors": ["danse_toolbox/d_core.py:generate_signals_for_snr_computation", "danse_toolbox/d_classes.py:DANSEvariables.get_desired_signal"]}
{"id": "C89", "title": "The reference estimates do not disturb DANSE", "statement": "If a run with the centralised or single-sensor estimates completes, the run without them completes with the same DANSE and local estimates; so these estimates do not depend on these options or on the centralised filters.", "quantifier": "every schedule, signals, filters and options", "why_tests_cant": "Holds for every schedule, number of nodes and sensors and every signal.", "anchors": ["danse_toolbox/d_classes.py:DANSEvariables.update_and_estimate", "danse_toolbox/d_classes.py:DANSEvariables.broadcast"]}
{"id": "C90", "title": "Combinations of options for which the reference estimates fail", "statement": "A user can ask for the centralised and single-sensor estimates in every mode - refuted: with few-sample broadcasts that are not efficient, with SRO compensation (single-sensor), without the centralised estimate (single-sensor), or with efficient broadcasts when fewer than L samples were recorded since the last one, every run fails; and with linear-convolution synthesis the centralised estimate of a node with no more sensors than the nodes before it does not depend on what this node records.", "quantifier": "every schedule with a broadcast or update, every signal, filters and number of nodes of at least two", "why_tests_cant": "A test shows one failing run, not that none completes.", "anchors": ["danse_toolbox/d_classes.py:DANSEvariables.pre_fill_buffers_centralised", "danse_toolbox/d_classes.py:DANSEvariables.fill_buffers_centr", "danse_toolbox/d_classes.py:DANSEvariables.build_yssbc", "danse_toolbox/d_classes.py:DANSEvariables.compensate_sros", "danse_toolbox/d_base.py:get_desired_sig_chunk"]}
{"id": "C91", "title": "Centralised filters that select a sensor reproduce its signal", "statement": "With the schedule of the code for synchronous nodes and whole-chunk or efficient few-sample broadcasts (L dividing the hop), the centralised estimate of a node whose centralised filters select one sensor - its own or one of another node - is the signal of that sensor, sample by sample, up to the last two frames of the recording.", "quantifier": "every number of nodes and sensors, signal, selected sensor, window pair with the overlap-add property, DFT size, hop and sampling frequency", "why_tests_cant": "Holds for every schedule, number of nodes and sensors and every signal.", "anchors": ["danse_toolbox/d_classes.py:DANSEvariables.get_desired_signal", "danse_toolbox/d_classes.py:DANSEvariables.build_ycentr", "danse_toolbox/d_base.py:initialize_events"]}
{"id": "C92", "title": "TI-DANSE with efficient few-sample broadcasts", "statement": "With efficientSpSBC (the default) and chunks of L samples, L dividing the hop Ns, synchronous TI-DANSE nodes exchange signals exactly at their updates, and a run over any trees computes what nodes that exchange their signals directly would. If the nodes send their reference sensors and DFTsize = R Ns, each node has at update i its own frames up to sample i Ns and, of each other node, the last DFTsize samples of the stream made of its samples 0..Ns and DFTsize..i Ns; from sample 2 DFTsize on these are the samples that precede sample i Ns, as without the option. Refuted: that the option never changes what the nodes observe (at the first R updates it does), and that it works when L does not divide Ns (ValueError).", "quantifier": "every number of nodes, network, trees, recording, sampling frequency, DFT size, hop, L, updating strategy, re-rooting", "why_tests_cant": "Holds for every network, recording length and combination of sizes; the lost samples only show in the first updates of a run.", "anchors": ["danse_toolbox/d_base.py:prep_evmat_build", "danse_toolbox/d_classes.py:TIDANSEvariables.ti_fusion", "danse_toolbox/d_classes.py:TIDANSEvariables.ti_compute_partial_sum", "danse_toolbox/d_classes.py:DANSEvariables.get_buffer_size_for_efficient_bc"]}
{"id": "C93", "title": "Pruning a network to a tree and choosing its root", "statement": "prune_wasn_to_tree turns every connected network of nodes with known positions, in which no two linked nodes are at the same place (or all nodes are), into a tree of links of the network of least total length, the same for every root, with matching neighbour lists and node types and orientated towards the requested root; TI-DANSE on the pruned networks gives the same outputs whatever the network, the positions and the spanning-tree algorithm. It always terminates and fails exactly when a position is unknown. Without a requested root, the user-defined one is used, and a missing one or an unknown measure is rejected. Refuted: that it always gives a connected tree (two linked nodes at the same place lose a link, and some node then gets no event at all; nodes of a disconnected network are dropped silently), that it works outside simulated rooms (TypeError), that the SNR measure picks the node with the best SNR (it picks the worst).", "quantifier": "every number of nodes, adjacency matrix, node positions, root, minimum-spanning-tree algorithm, recording and VAD", "why_tests_cant": "Holds for every network geometry and every spanning-tree algorithm; the link loss depends on coincidences of positions that sample rooms do not contain.", "anchors": ["danse_toolbox/d_base.py:prune_wasn_to_tree", "danse_toolbox/d_base.py:update_wasn_object_from_nxgraph", "siggen/classes.py:WASN.all_nodes_at_same_position", "siggen/classes.py:WASN.set_tree_root", "siggen/classes.py:WASN.orientate"]}
{"id": "C94", "title": "The intelligibility score (STOI / eSTOI)", "statement": "stoi_any_fs: the score is the mean over bands and 30-frame segments of the correlation of the clipped and normalised band levels of the audible frames (extended: of the row- and column-normalised segments) exactly as in the standard's formulas; any score that is returned lies between -1 and 1, extended or not; fewer than 31 audible frames (256 samples at 10 kHz, hop 128, at most 40 dB below the loudest one) give the fallback score 1e-5, and at most 4096 samples never suffice; signals of different lengths are rejected; the score depends only on samples of the processed signal that lie in audible frames of the clean one; a signal compared with itself under the same dither has extended score 1 unless a band is constant; the extended score is invariant to a positive gain on the processed signal (which amounts to dividing its dither by the gain). Refuted: that signals that are too short give 1e-5 (at most 256 samples raise ValueError).", "quantifier": "every pair of signals, resampler, band matrix of zeros and ones, dither, machine precision and gain", "why_tests_cant": "Range, mask and invariance statements hold over all real signals and random draws; the score is randomised, so that sample comparisons do not settle them.", "anchors": ["danse_toolbox/mypystoi/stoi.py:stoi_any_fs", "danse_toolbox/mypystoi/utils.py:remove_silent_frames", "danse_toolbox/mypystoi/utils.py:stft", "danse_toolbox/mypystoi/utils.py:row_col_normalize"]}
{"id": "C95", "title": "Nodes with different clocks (sampling-rate offsets), end to end", "statement": "When each node samples with its own clock and broadcasts L samples at a time, the event schedule is produced, with each node updating and broadcasting at its own samples; when a frame holds the packets that a neighbour can complete between two updates the run ends normally, and exactly when that is so for all pairs of updates in a row: otherwise it fails with ValueError; the flags that a node has recorded for a neighbour add up to the samples completed by the neighbour minus those consumed, that is to the drift of the two clocks rounded down by less than a packet; the frame held of a neighbour is the last N samples of the packets completed. Without overlap between frames, a neighbour whose clock gains one packet makes the run fail.", "quantifier": "every number of nodes, clock frequencies, recording length, frame length and hop, packet length, neighbour lists, signals and filters", "why_tests_cant": "The flags and the failures depend on number-theoretic coincidences of the clocks over the whole recording; tests only sample some pairs of clocks and short recordings.", "anchors": ["danse_toolbox/d_base.py:initialize_events", "danse_toolbox/d_base.py:prep_evmat_build", "danse_toolbox/d_classes.py:process_incoming_signals_buffers", "danse_toolbox/d_core.py:danse"]}
{"id": "C96", "title": "Sensor arrays have the announced geometry", "statement": "generate_array_pos returns the asked number of sensors; a linear array lies on a line centred at the node with equal steps of Mk/(Mk-1) times the asked distance (not the asked distance itself); with 'radius' every sensor is within the radius of the node; a grid array has its first sensor at the node, no two sensors closer than the asked distance and all within it in each coordinate, and fails beyond 27 sensors; other geometries are an error; the random rotation keeps all the distances and the centre; rotate_array_yx keeps the distances, puts points of equal height in a plane perpendicular to the target and fails exactly when the target is on the vertical axis.", "quantifier": "every number of sensors, node position, distance, rotation and random draw", "why_tests_cant": "The geometry must hold for all rotations and draws, not for those of a seed.", "anchors": ["siggen/utils.py:generate_array_pos", "siggen/utils.py:rotate_array_yx"]}
{"id": "C97", "title": "Layouts keep sources and sensors in the room", "statement": "random_points_on_line returns the asked number of points of the line, the first one at the asked distance from the walls, pairwise at least minSpacing apart; a spinning-top layout that is returned keeps the sensors (and one desired and one noise source) at the asked distance from the walls; on the circle of n nodes neighbours are 2 r sin(pi/n) apart; the points of a random layout keep the distance to the walls, and grid sensors keep it up to the inter-sensor distance; each node receives the impulse responses of its own sensors, desired and noise sources apart. Refuted: that later points of the line are in the room, that the default spacing works with several points, that numbers of sources other than 1 and 3 work, that three sources are checked against the right dimensions, that the vertical layout is vertical or possible, that spinTop_minInterNodeDist bounds distances, that random sensors are in the room, that zero noise sources give no noise responses.", "quantifier": "every room, layout parameters, number of nodes and sensors, and every sequence of random draws", "why_tests_cant": "Layouts are random: a test sees the layouts of some seeds.", "anchors": ["siggen/utils.py:random_points_on_line", "siggen/utils.py:build_room"]}
{"id": "C98", "title": "Enhanced signals of batch mode", "statement": "For recordings of at least one window that leave samples over after the last complete frame, a batch run (DANSE and TI-DANSE) that ends normally gives every node a signal made of exactly the complete frames, each filtered in every bin with one filter on all sensors of the network (that of the node's internal filter after the last update, with the fused signals used in that update); a filter that lets one sensor pass gives back its recording wherever the squared windows sum to more than 1e-10 (with a rectangular window: every sample of the complete frames); the output is additive in the recordings for fixed filters, and zero after the last complete frame and, for a window that starts with zero, at the first sample; the run succeeds whenever the updates do; the signals converge to the centralised ones as the number of updates grows, for one source. Refuted: that runs succeed when the frames fit the recording exactly, that two-frame recordings use their second frame, that runs without overlap succeed.", "quantifier": "every recording, window, shift, network, number of iterations and covariance history", "why_tests_cant": "Lengths, windows and data are unbounded, and convergence is a statement on the limit.", "anchors": ["danse_toolbox/d_core.py:danse_batch", "danse_toolbox/d_core.py:tidanse_batch", "danse_toolbox/d_batch.py:get_istft", "danse_toolbox/d_base.py:get_stft", "danse_toolbox/d_base.py:get_istft"]}
{"id": "C99", "title": "Best achievable performance and batch costs", "statement": "The best-performance signal of a node is made of exactly the complete frames, filtered with the given filters or, without them, with the filters updated from the covariance matrices of all frames of all sensors split by the VAD 'active at any node'; the run succeeds whenever those matrices exist and the updates succeed; it equals the centralised signal of batch mode where that exists; its speech-only and noise-only versions add up to it. The cost of the DANSE estimate is the mean squared error without the first and last 1000 samples and exists exactly for more than 2000 samples, while the other costs are over all samples. Refuted: that the costs can be compared (equal signals may have different costs).", "quantifier": "every recording, window, shift, network, given filters and pair of signals", "why_tests_cant": "The claims range over all recordings, lengths and filters.", "anchors": ["danse_toolbox/d_core.py:get_best_perf", "danse_toolbox/d_classes.py:init_from_wasn_for_best_perf", "danse_toolbox/d_batch.py:get_centralized_estimates", "danse_toolbox/d_batch.py:get_mmse_cost"]}
{"id": "C100", "title": "Evaluation of a run", "statement": "The scores reported for a node are computed from that node's signals over its evaluation window (the samples that end after its start time and not after its end time): before, from the reference sensor; after, from the DANSE output (SNR: from the outputs of the runs on the speech and the noise components); and likewise for the centralised, local and single-sensor-broadcast estimates that were asked for (0 otherwise); the best performance 0.2 s further inside. A metric is reported exactly if it is asked for, its value does not depend on the other metrics asked for, and the evaluation succeeds whenever the scores asked for can be computed. If the outputs of a batch run are completed by hand, the window leaves out the last frame. PESQ is computed at 8 and 16 kHz only. Refuted: that the best performance stays in the window, that a call without VAD succeeds, that dynamic metrics can be asked for on their own, that PESQ of the best and of the single-sensor-broadcast estimate uses the aligned clean speech, that batch runs and runs without best-performance reference can be evaluated.", "quantifier": "every set of signals, window, sampling frequency, list of metrics, number of nodes, and every score function", "why_tests_cant": "The claims hold for every signal and score function, and every combination of requested metrics and estimates.", "anchors": ["danse_toolbox/d_eval.py:get_metrics", "danse_toolbox/d_post.py:compute_metrics", "tests/sandbox.py:danse_it_up"]}
{"id": "C101", "title": "Speech-intelligibility-weighted SNR", "statement": "At sampling frequencies above 2858.5 Hz get_sisnr returns the importance-weighted sum of the SNRs of the band-filtered signals, at lower ones it raises ValueError; the weights are positive and sum to exactly 1, so that the result lies between the smallest and the largest SNR of the bands (a flat SNR is returned unchanged); a gain g on the speech adds 20 log10|g|, on the noise subtracts it, and exchanging speech and noise changes the sign. Each section of the band filters answers from rest exactly as its difference equation prescribes. Refuted: that the bands are the third-octave bands of the table (the edges are 2*pi times too low: no band contains its centre frequency and nothing above 1430 Hz lies in a pass band).", "quantifier": "every pair of signals of equal length, sampling frequency, filter design and gain", "why_tests_cant": "The claims hold over all real signals and sampling frequencies.", "anchors": ["danse_toolbox/d_eval.py:get_sisnr", "danse_toolbox/d_eval.py:get_snr"]}
{"id": "C102", "title": "Frequency-weighted segmental SNR", "statement": "For two signals of the same length N of at least a frame and a shift, get_fwsnrseg returns (N - win) / skip scores; the score of frame t is the mean over the 25 critical bands of the SNR of the band's share of the spectrum, weighted by the clean share to the power gamma and limited to 0...35 dB (NaN if a spectrum vanishes or a band of the clean signal is empty). It depends only on the samples of that frame, is blind to gain and polarity of the processed signal, and is 35 dB for identical signals whose bands all hold a millionth of the spectrum. Refuted: that one complete frame can be scored (the last complete frame is never used, shorter signals raise), and that sampling frequencies up to 6 kHz can be used (every score is NaN).", "quantifier": "every pair of real signals, sampling frequency, frame duration, overlap, exponent and gain", "why_tests_cant": "The claims hold over all real signals, lengths and frame layouts.", "anchors": ["danse_toolbox/d_eval.py:get_fwsnrseg"]}
{"id": "C103", "title": "Topology descriptions", "statement": "verify_topology accepts exactly the descriptions with one branch in the first level, branches of at least two known nodes, no node twice in a level, no node synchronised twice (the root never), and references that were synchronised in the level before (in the second level also the root). For an accepted description get_unique_node_list returns every node once, the root first; every other node has exactly one reference; get_async_node_delays returns level times delay per level; in a tree described level by level every node of level l is l + 1 references away from the root. Refuted: that an accepted description is a tree described level by level.", "quantifier": "every nested list of node names, whitelist and delay per level", "why_tests_cant": "The descriptions are unbounded in depth, width and number of nodes.", "anchors": ["dxcpphat/demo_utils.py:verify_topology", "dxcpphat/demo_utils.py:is_unique_list", "dxcpphat/demo_utils.py:get_unique_node_list", "dxcpphat/demo_utils.py:get_async_node_delays"]}
{"id": "C104", "title": "Simulated synchronisation of a tree of clocks", "statement": "For a tree described level by level run_simulation_online never fails, and returns for each node the negated estimates of an estimator that compares the synchronised signal of its reference with its own signal, delayed by two frames per level; run_simulation_parallel returns for every order in which the processes of a level deliver their results, always the same, with the same estimates; the synchronised signals agree in all frames but the first and the last. Refuted: that every accepted description can be simulated (KeyError in the online simulation, misaligned signals in the parallel one if the second level refers to the root); that the synchronised signals of the two agree in the first frame (never written online) and the last (never compensated in parallel).", "quantifier": "every tree, estimator, signal, number of frames and order of arrival of the results of concurrent processes", "why_tests_cant": "The result must not depend on the scheduling of the processes; trees, signals and frames are unbounded.", "anchors": ["dxcpphat/demo_utils.py:run_simulation_online", "dxcpphat/demo_utils.py:run_simulation_parallel", "dxcpphat/delay_buffer.py:DelayBuffer"]}
{"id": "C105", "title": "Oracle acoustic coherence state", "statement": "get_oracle_acs is 1 at exactly the times at which a source is active and no source has started or stopped for 12.8 s. Refuted: that the argument delay sets that time (it is ignored).", "quantifier": "every scene diary, duration and number of values", "why_tests_cant": "The diary and the time axis are unbounded.", "anchors": ["dxcpphat/demo_utils.py:get_oracle_acs"]}
{"id": "C106", "title": "Network-wide filters of the figures", "statement": "compute_netwide_danse_filts returns, for a node, one labelled column per sensor of the network, node by node; a column of the own node is the mean magnitude of the coefficient per iteration, one of another node is 0 in the first row and then the mean magnitude of fusion vector times coefficient of the received signal (TI-DANSE: of the in-network sum). The coefficients so composed are network-wide filters: applied to all sensors of the network they give the estimate of the node, for all signals; so the rows of converged filters are their magnitudes. Refuted: that a row shows the network-wide filter of an estimate of the run (row i+1 pairs the fusion vectors of iteration i+1 with the filter of iteration i); that the figures of real and imaginary parts show those.", "quantifier": "every number of nodes, sensors, bins and iterations, all filters, fusion vectors and signals", "why_tests_cant": "The identity must hold for all signals and all networks.", "anchors": ["danse_toolbox/d_post.py:compute_netwide_danse_filts", "danse_toolbox/d_post.py:plot_filter_evol", "danse_toolbox/d_post.py:plot_filters"]}
{"id": "C107", "title": "Initialisation of covariance matrices from batch estimates", "statement": "Refuted: that covMatInitType 'batch_estimates' can be used. Called with a node only, or with filters, the method that forms the batch observations uses the current external filters, or those; but the initialisation passes False for the filters, and then both False and the filters, so that in every network of two or more nodes it raises TypeError, fully connected or tree, whatever the signals and filters are; with a single node it never returns either.", "quantifier": "every network, signals, voice activity, filter update and initial filters", "why_tests_cant": "That no configuration works ranges over all networks, signals and filters.", "anchors": ["danse_toolbox/d_classes.py:init_covmats_from_batch", "danse_toolbox/d_classes.py:DANSEvariables.get_y_tilde_batch", "danse_toolbox/d_base.py:get_y_tilde_batch"]}
{"id": "C108", "title": "Recorded condition numbers", "statement": "With saveConditionNumber and saveConditionNumberEvery = e >= 1 (in iterations) the condition numbers of all bins are recorded in exactly the iterations e-1, 2e-1, ..., in order, each of the matrices of that iteration; recording never happens when it is switched off. Through TestParameters the setting is on exactly when condition numbers are to be plotted.", "quantifier": "every sequence of matrices, number of iterations and setting", "why_tests_cant": "Runs have any length and any spacing.", "anchors": ["danse_toolbox/d_classes.py:ConditionNumbers", "danse_toolbox/d_classes.py:spatial_covariance_matrix_update", "danse_toolbox/d_classes.py:TestParameters.__post_init__"]}
{"id": "C109", "title": "Signal-to-noise ratio of a scenario", "statement": "With snrBasis 'mic1' or another name that denotes the first microphone of the network, build_scenario scales every noise source so that at that microphone the desired signals are exactly snr dB above it: with one noise source this is the SNR of the sensor signals, with several that are orthogonal there it is lower by their number. With 'dry_signals' and sources of mean zero read from files every desired source is snr dB above every noise source. With 'exponential' decay every sample of a response is the drawn one times exp(-t/tau). With 'immediate' decay a sensor hears a source unchanged up to a gain that is not negative. Refuted: that the SNR can be set at another microphone in a network whose nodes have the same number, at least two, of sensors (the run fails); that dry random signals have the asked ratio.", "quantifier": "all signals, impulse responses, networks, numbers of sources and SNRs", "why_tests_cant": "The equality must hold for every signal and impulse response.", "anchors": ["siggen/utils.py:build_scenario", "siggen/utils.py:get_raw_source_signals", "siggen/utils.py:generate_random_rir"]}
{"id": "C110", "title": "Sensors replaced by noise, noise sensors added", "statement": "setThoseSensorsToNoise, if it does not only hold zeros, replaces the signals and components of exactly the listed sensors of the network, and the components at the reference sensor follow; addedNoiseSignalsPerNode appends to every node as many sensors as asked and changes nothing else. Refuted: that sensor 0 alone can be replaced (any([0]) is false); that the signal of a replaced sensor is the sum of its components.", "quantifier": "every network, list of sensors, numbers of added sensors and drawn signals", "why_tests_cant": "Networks, lists and draws are unbounded.", "anchors": ["siggen/utils.py:build_wasn"]}
{"id": "C111", "title": "Random choice of noise files", "statement": "With noiseSignalFile 'loadfrom <folder>' the noise files are as many different files of the folder as there are noise sources, never the file of diffuse babble; every file, or else its counterpart at the right sampling rate, can be chosen; the choice succeeds iff there are enough candidates and else raises ValueError; no file that has a counterpart is chosen if no two consecutive files have one. Refuted: that no file with a counterpart at the right sampling rate is ever chosen (files are removed from the list that is being iterated over).", "quantifier": "every folder, order of files, number of sources and draw", "why_tests_cant": "Which files survive depends on their order in the folder.", "anchors": ["siggen/classes.py:WASNparameters.__post_init__", "siggen/classes.py:_select_random_files_from_folder"]}
{"id": "C112", "title": "Parameters aligned with a layout file", "statement": "align_with_loaded_yaml_layout gives parameters of the network of the file: its room, sensors, nodes and sources, one sampling-rate offset and number of added sensors per node, a file for every source, redrawn from the same folder if noise files were drawn. With named noise files it succeeds iff the room is larger than three times the distance to the walls, per-node values fit the number of nodes and there are enough files, and else raises ValueError; offsets that differ between nodes survive only if parameters and layout have the same number of nodes. Refuted: that a layout file can be used with random signals (names of signal files are demanded anyway).", "quantifier": "every layout file and parameters", "why_tests_cant": "Layouts and parameters are unbounded.", "anchors": ["siggen/classes.py:align_with_loaded_yaml_layout", "siggen/classes.py:WASNparameters.__post_init__"]}
{"id": "C113", "title": "One row per update in every array of a run", "statement": "The arrays that a run allocates per node (nIter rows, filters one more) have a row, and the VAD a decision, for every update of the node; after the run row i (filters: i+1) is that of the update with index i and the rows left over have their initial values. A recording more than one shift shorter than a frame raises ValueError. A batch run with more batch updates than frames raises IndexError, otherwise every update has its row. Refuted: that the last row is that of the last update (with one clock the last row, with shift dividing frame and recording the last two, are never filled: the last row of exported filters is the initial filter).", "quantifier": "every network, clock rates, frame length, shift, length of the recording, broadcast type and VAD", "why_tests_cant": "Frame counts, clock rates and recording lengths are unbounded; an off-by-one only shows for some.", "anchors": ["danse_toolbox/d_classes.py:DANSEvariables.init_from_wasn", "danse_toolbox/d_classes.py:update_and_estimate", "danse_toolbox/d_classes.py:ti_update_and_estimate", "siggen/classes.py:get_vad_per_frame"]}
{"id": "C114", "title": "The VAD decision of an update is about the samples it processes", "statement": "The VAD decision that an update uses is taken over frameLen samples from i*Ns on, i the index of the update. With few-sample broadcasts and a shift that divides the frame length these are exactly the samples that the update processes (DANSE and TI-DANSE); otherwise they start less than one shift earlier. Refuted with whole-chunk broadcasts: the decision is N-Ns samples ahead of the frame in fully connected networks and one shift behind in TI-DANSE, so that at every update there are voice activities for which a frame without any speech is counted as speech, with the default parameters too.", "quantifier": "every network, clock rates, frame length, shift, update, signal and voice activity", "why_tests_cant": "The alignment must hold at every update for every frame length, shift and broadcast type.", "anchors": ["danse_toolbox/d_classes.py:spatial_covariance_matrix_update", "danse_toolbox/d_base.py:local_chunk_for_update", "danse_toolbox/d_base.py:prep_evmat_build", "siggen/classes.py:get_vad_per_frame"]}
{"id": "C115", "title": "What sampling-rate-offset compensation leaves over", "statement": "The delay between a node's own signals and those of a neighbour that is left after compensation is zero at every update with oracle offsets. With the open coherence-drift loop and exact estimates at every update, the drift until the first estimate stays, and from then on eps^2/(1+eps) per sample is added. Refuted: that the closed loop removes the offset; even if every estimate is exact, at least the fraction 1-alphaEps (95 % with default settings) of the offset is left at every update.", "quantifier": "every offset, history of flags, schedule of estimates, frame shift, number of updates", "why_tests_cant": "The remaining delay accumulates over runs of any length and depends on every flag and estimate of the history.", "anchors": ["danse_toolbox/d_classes.py:DANSEvariables.compensate_sros", "danse_toolbox/d_classes.py:DANSEvariables.build_phase_shifts_for_srocomp", "danse_toolbox/d_classes.py:DANSEvariables.update_sro_estimates"]}
{"id": "C116", "title": "Coherence-drift estimates of a whole run", "statement": "If there is signal in all bins and the lag segLength is not longer than the time before the first estimate, estimates come at the scheduled updates only, each is the estimator applied to the exponential average of the coherence products of the scheduled updates so far, and if the neighbour's channel is the own signal through a fixed transfer function whose delay grows by D samples over each lag, every estimate is D/(segLength*Ns). Refuted: that the open loop corrects for flags (it counts a flag of one sample as broadcastLength samples); that runs with given filters repeat the estimates (with the closed loop every product is NaN); that estimation can start before segLength updates (NaN for the rest of the run). A single silent bin in one of the spectra compared makes that and every later 'ls' estimate NaN.", "quantifier": "every sequence of spectra and flags, schedule, lag, number of bins, averaging constant, loop and estimation method", "why_tests_cant": "The average depends on the whole history, and rows are addressed relative to the current update: only unbounded reasoning covers all schedules.", "anchors": ["danse_toolbox/d_classes.py:DANSEvariables.update_sro_estimates", "danse_toolbox/d_sros.py:cohdrift_sro_estimation"]}
{"id": "C117", "title": "Filters of a whole online DANSE run", "statement": "In a whole online run (frames, buffers, broadcasts, covariance and filter updates together) a node writes one filter row per update: a copy of the previous one if the update is bypassed, the initial one until updating has started, and from then on what the update rule gives for the exponentially weighted covariance matrices of all active and of all inactive frames the node has heard so far; without GEVD that is the one solution of Ryy w = (Ryy - Rnn) e_ref in every bin. Broadcast filters follow the filters of the node's own sensors (or the selector, or the old ones, or the relaxed target) as configured. Both matrices are positive definite once updating has started, with positive definite initial matrices it starts at the first update that is late enough and has more active and inactive frames than channels, and the run ends without an exception.", "quantifier": "every recording, number of nodes, sensors and samples, schedule, VAD, bypass pattern, phase factors, forgetting factor in (0,1]", "why_tests_cant": "Every filter depends through the broadcasts on all earlier filters of all nodes: the closed loop has to be handled by induction over the schedule.", "anchors": ["danse_toolbox/d_core.py:danse", "danse_toolbox/d_classes.py:DANSEvariables.update_and_estimate", "danse_toolbox/d_classes.py:DANSEvariables.perform_update", "danse_toolbox/d_classes.py:DANSEvariables.spatial_covariance_matrix_update", "danse_toolbox/d_classes.py:DANSEvariables.check_covariance_matrices", "danse_toolbox/d_classes.py:DANSEvariables.update_external_filters"]}
{"id": "C118", "title": "Templates of parameter objects can be loaded again", "statement": "Dumping a parameter object to a template and loading the template into any instance of the same classes gives every declared field, also of nested instances, the value it had; attributes that are not declared stay as they are. A template can be written only if all declared fields have values. Arrays in fields that are not declared as arrays come back as lists, and strings in square brackets as what they evaluate to.", "quantifier": "every class declaration, nesting depth, object and instance to load into, every result of literal_eval", "why_tests_cant": "Ranges over all objects and nesting depths.", "anchors": ["danse_toolbox/dataclass_methods.py:dump_to_yaml_template", "danse_toolbox/dataclass_methods.py:load_from_yaml"]}
{"id": "C119", "title": "Filters of a whole online TI-DANSE run", "statement": "In a complete TI-DANSE run each node writes at its i-th update, in row i+1 of its filter array, a copy of row i if the update is bypassed, the initial filter before updating has started, and afterwards what the update rule gives for the exponentially weighted covariance matrices of all the active and all the inactive frames of its own sensors and of the in-network sum heard so far (without GEVD: the Wiener filter). The one exception is the normalisation of node 0 under sequential updating, which changes the weight on the in-network sum to one and nothing else, so that the row is not what the rule gave; with default initial filters it divides zero by zero unless updating has started by second 1. External filters follow the relaxation rules. All of it is the same in every network and tree; without normalisation the run ends normally for all signals.", "quantifier": "every number of nodes and sensors, network, tree, signal, VAD pattern, schedule, forgetting factor, update rule and history", "why_tests_cant": "Ranges over all whole runs; a test sees one network and one signal.", "anchors": ["danse_toolbox/d_core.py:tidanse", "danse_toolbox/d_classes.py:TIDANSEvariables.ti_update_and_estimate", "danse_toolbox/d_classes.py:TIDANSEvariables.normalize_filter_coeff", "danse_toolbox/d_classes.py:DANSEvariables.perform_update", "danse_toolbox/d_classes.py:DANSEvariables.spatial_covariance_matrix_update", "danse_toolbox/d_classes.py:DANSEvariables.check_covariance_matrices", "danse_toolbox/d_classes.py:DANSEvariables.update_external_filters"]}
{"id": "C120", "title": "Test batteries can be interrupted and started again", "statement": "A test battery that skips the tests it finds results for may be interrupted at any point of the exports, any number of times, and started again: when a later run comes to its end, every test has its own complete results, each test whose results were complete is launched no more and its folder is never touched again, and an uninterrupted run always ends. This holds provided tests have different names, the user allows the overwriting of unfinished folders, the metrics plot is on and no crash hits the writing of a results file itself; each of these conditions is necessary: an incomplete results file is never completed, files written after the results are never written if the crash falls in between, without the metrics plot every test ends up with an empty results file and is then taken for done, a declined overwrite leaves a test without results in a run that ends normally, and tests whose values round to the same name are not run.", "quantifier": "every list of tests, export setting, answer of the user, history of runs and crash point of each", "why_tests_cant": "Ranges over all histories of runs and crash points.", "anchors": ["tests/battery20230919_perf_asfctofL.py:main", "tests/battery20231009_filtnorms_asfctofSROs.py:main", "tests/battery20231013_perf_asfctofSelfNoise.py:main", "danse_toolbox/d_classes.py:ExportParameters.check_export_folder", "danse_toolbox/d_post.py:export_danse_outputs", "danse_toolbox/d_post.py:DANSEoutputs.save_metrics", "tests/sandbox.py:main"]}
{"id": "C121", "title": "The level of the recording does not matter", "statement": "When the covariance matrices are based on the first frames, a DANSE run on the recording times a real factor other than zero (also a negative one) gives exactly the same filters at all nodes and updates and exactly the outputs times that factor, and fails with the same exception if it fails, for any network, schedule, broadcast mode and synthesis mode. With initial matrices as basis the same holds if these are multiplied by the square of the factor. The Wiener filter update does not depend on the level, neither does the GEVD-based one if the library scales its eigenvectors accordingly. Refuted for the default setting (initial matrices as basis, whatever the level): filters differ.", "quantifier": "every recording, real factor, network, schedule, VAD pattern, setting", "why_tests_cant": "Ranges over all recordings, factors, networks and schedules.", "anchors": ["danse_toolbox/d_core.py:danse", "danse_toolbox/d_classes.py:DANSEvariables.update_and_estimate", "danse_toolbox/d_classes.py:DANSEvariables.spatial_covariance_matrix_update", "danse_toolbox/d_classes.py:update_w", "danse_toolbox/d_classes.py:update_w_gevd", "danse_toolbox/d_base.py:init_covmats"]}
{"id": "C122", "title": "The level of the recording does not matter in TI-DANSE", "statement": "When the covariance matrices are based on the first frames, a TI-DANSE run on the recording times a real factor other than zero gives exactly the same filters at all nodes (broadcast filters included), and exactly the in-network sums and outputs times that factor, and fails with the same exception if it fails (division by a zero weight included), for any network, tree sequence and schedule. With initial matrices as basis the same holds if these are multiplied by the square of the factor. Refuted for the default setting: filters differ.", "quantifier": "every recording, real factor, network, sequence of trees, schedule, VAD pattern, setting", "why_tests_cant": "Ranges over all recordings, factors, networks, trees and schedules.", "anchors": ["danse_toolbox/d_core.py:tidanse", "danse_toolbox/d_classes.py:TIDANSEvariables.ti_update_and_estimate", "danse_toolbox/d_classes.py:TIDANSEvariables.ti_fusion", "danse_toolbox/d_classes.py:TIDANSEvariables.ti_compute_partial_sum", "danse_toolbox/d_base.py:init_covmats"]}
{"id": "C123", "title": "A node without neighbours: DANSE is the local filter", "statement": "A node that has no neighbours (also the single node of a network) has, at every update of an online DANSE run, the same DANSE filter as local filter, and its DANSE output equals the local output sample by sample, if both start from the same initial filter and the node's own channels are not phase-shifted: for every recording, schedule, set of other nodes, update rule, rank test and synthesis.", "quantifier": "every recording, schedule, network around the node, update rule, setting", "why_tests_cant": "Ranges over all recordings, schedules and settings.", "anchors": ["danse_toolbox/d_core.py:danse", "danse_toolbox/d_classes.py:DANSEvariables.update_and_estimate", "danse_toolbox/d_classes.py:DANSEvariables.perform_update", "danse_toolbox/d_classes.py:DANSEvariables.build_ylocal"]}
{"id": "C124", "title": "Redundant channels stop the adaptation", "statement": "With use1stFrameAsBasis, if in one single bin the channels of all the active (or all the inactive) frames a node hears satisfy one linear equation, the node keeps its initial filters for the whole run, without any exception. So: one sensor that records zeros, or a multiple of what another sensor of the node records, keeps the node's DANSE and local filters at their initial values; one node whose sensors all record zeros keeps the DANSE filters of all its neighbours (in a fully connected network: of all other nodes) at their initial values.", "quantifier": "every recording, network, schedule, VAD pattern, update rule", "why_tests_cant": "Ranges over all recordings, networks and schedules.", "anchors": ["danse_toolbox/d_classes.py:DANSEvariables.check_covariance_matrices", "danse_toolbox/d_classes.py:DANSEvariables.update_and_estimate", "danse_toolbox/d_classes.py:DANSEvariables.conditional_scm_updating", "danse_toolbox/d_base.py:local_chunk_for_update", "danse_toolbox/d_core.py:danse"]}
{"id": "C125", "title": "Microphone gains", "statement": "With use1stFrameAsBasis and initial filters that select the reference sensors, multiply every sensor of every node by a real gain other than zero (each its own). Then the online DANSE run ends as it did without gains (normally or with the same exception); the DANSE and local outputs of a node are multiplied by the gain of its own reference sensor, whatever the other gains in the network, so they do not change if the reference sensors keep their levels; the filters make up for the gains: the one for sensor c of node k is multiplied by gain(k,ref)/gain(k,c), the one for the signal of neighbour q by gain(k,ref)/gain(q,ref). The Wiener and the GEVD update satisfy the condition this needs. With the default use1stFrameAsBasis=False the gain of a non-reference microphone changes the output.", "quantifier": "every network, recording, gains, schedule, setting", "why_tests_cant": "Ranges over all recordings, gains, networks and schedules.", "anchors": ["danse_toolbox/d_core.py:danse", "danse_toolbox/d_classes.py:DANSEvariables.update_and_estimate", "danse_toolbox/d_classes.py:DANSEvariables.perform_update", "danse_toolbox/d_classes.py:update_w", "danse_toolbox/d_classes.py:update_w_gevd", "danse_toolbox/d_classes.py:DANSEvariables.broadcast"]}
{"id": "C126", "title": "One call of the driver: filtered speech and noise belong to the estimate", "statement": "One call of the driver runs DANSE on the recordings and re-runs it, with the filters of that run, on the clean noise and on the clean speech. With few-sample broadcasts in a fully connected network, whatever the schedule, the driver ends normally whenever the run on the recordings does (and with its exception otherwise), and in what the evaluation gets the estimate of every node is at every sample the sum of its filtered speech and its filtered noise (DANSE and local). In ad-hoc networks the run returns its first tree instead of the network, and the re-runs prune that tree again: this gives the same trees, and unless the broadcasts are 'efficient' the same schedule for all clocks, so the same two statements hold. End to end: with synchronous nodes, Wiener filters and a connected network the driver ends normally for every recording. With 'efficient' broadcasts and different clocks the re-runs have another schedule, and the components do not add up. Batch mode is rejected in fully connected networks.", "quantifier": "every network, recording and decomposition of it, schedule, setting, spanning-tree algorithm", "why_tests_cant": "Ranges over all recordings, networks, clocks and update rules.", "anchors": ["tests/sandbox.py:danse_it_up", "danse_toolbox/d_core.py:generate_signals_for_snr_computation", "danse_toolbox/d_core.py:format_output", "danse_toolbox/d_core.py:tidanse", "danse_toolbox/d_base.py:initialize_events", "danse_toolbox/d_base.py:prune_wasn_to_tree"]}
{"id": "C127", "title": "The filters of a run have the least estimated error", "statement": "Estimated error of a filter on the frames a node has heard: running-average power of the speech that is missing from its output (active minus inactive frames) plus running-average power of the noise in it. Without GEVD, at every update after the start the filter that an online DANSE node writes and uses has in every bin the least estimated error of all filters for the channels it hears, and is the only one; likewise its local filter for its own sensors, and the filter of a TI-DANSE node for own sensors and in-network sum (rows that are not normalised). So filtering is never worse than passing on the reference sensor, and with use1stFrameAsBasis listening to the neighbours is never worse than local processing.", "quantifier": "every network, recording, schedule, update after the start, frequency bin, filter; any forgetting factor in (0,1]", "why_tests_cant": "Ranges over all recordings and over all competing filters.", "anchors": ["danse_toolbox/d_classes.py:update_and_estimate", "danse_toolbox/d_classes.py:spatial_covariance_matrix_update", "danse_toolbox/d_classes.py:update_w", "danse_toolbox/d_classes.py:ti_update_and_estimate"]}
{"id": "C128", "title": "Single-sensor nodes that do not fuse are as good as wired", "statement": "Synchronous nodes, few-sample broadcasts of L samples with L a divisor of the frame shift, no SRO compensation, noFusionAtSingleSensorNodes: if the neighbours of a node have one sensor each, then the frames that the node has heard at its updates are exactly the frames of all these sensors, aligned to the sample, from the first update on; so its filters are in every bin the unique multichannel Wiener filter of the raw signals of all these sensors.", "quantifier": "every network of that kind, recording, sampling rate, frame size, order of updates (in turns or not), update", "why_tests_cant": "Ranges over all recordings, frame sizes, update orders and filters of the neighbours.", "anchors": ["danse_toolbox/d_base.py:danse_compression_few_samples", "danse_toolbox/d_classes.py:process_incoming_signals_buffers", "danse_toolbox/d_classes.py:update_external_filters", "danse_toolbox/d_classes.py:update_and_estimate"]}
{"id": "C129", "title": "No adaptation without enough speech and enough noise", "statement": "If updates are switched off, or at most as many frames of the updates of a node are active as it has channels, or at most as many are inactive, or its last update comes before startUpdatesAfterAtLeast, then its filters keep their initial values in every bin until the end of the run (likewise the local ones); with the default initial filters and synchronous nodes its output is then the signal of its reference sensor, sample by sample, from the first update on to within two frames of the end, whatever the other nodes do.", "quantifier": "every network, recording, schedule, update rule, VAD decisions of that kind", "why_tests_cant": "Ranges over all recordings, schedules and lengths.", "anchors": ["danse_toolbox/d_classes.py:check_covariance_matrices", "danse_toolbox/d_classes.py:update_and_estimate", "danse_toolbox/d_classes.py:get_desired_signal"]}
{"id": "C130", "title": "The centralised and single-sensor-broadcast estimates of an online run", "statement": "computeCentralised and computeSingleSensorBroadcast change nothing else in an online DANSE run. The centralised filter that a node writes at an update is, after the start, what the update rule gives for the weighted covariance matrices of the frames of all sensors of the network, with the node's reference sensor in its place among them (bypassed update: copy; before the start: the initial filter); likewise the single-sensor-broadcast filter for its own sensors and the first sensor of every other node. Without GEVD it is in every bin the unique multichannel Wiener filter of these signals and has the least estimated error of all filters; with use1stFrameAsBasis the estimated error of the centralised filter is at most that of the single-sensor-broadcast filter, which is at most that of the local filter. In a synchronous network the frames are those that one device with all the sensors would record, aligned to the sample, and all nodes have the same centralised covariance matrices.", "quantifier": "every network, recording, schedule, update, frequency bin, competing filter; the last sentence: every synchronous network with whole-chunk or efficient few-sample broadcasts", "why_tests_cant": "Ranges over all recordings, schedules, networks and competing filters.", "anchors": ["danse_toolbox/d_core.py:danse", "danse_toolbox/d_classes.py:build_ycentr", "danse_toolbox/d_classes.py:build_yssbc", "danse_toolbox/d_classes.py:spatial_covariance_matrix_update", "danse_toolbox/d_classes.py:check_covariance_matrices", "danse_toolbox/d_classes.py:perform_update"]}
{"id": "C131", "title": "A synchronous run with whole-chunk broadcasts completes", "statement": "All clocks at the same rate, whole-chunk broadcasts, frames that overlap by half: the schedule is built and the run goes through without an exception, for whatever filters the nodes compute; with the MWF update, or with the GEVD update if the linear algebra calls return, this is the whole of online DANSE; the run with centralised and single-sensor-broadcast estimates completes whenever the run without them does (single-sensor-broadcast: fully connected network).", "quantifier": "every network with mutual neighbours, recording, length, sampling rate, frame size, order of updates", "why_tests_cant": "Ranges over all recordings, lengths and networks.", "anchors": ["danse_toolbox/d_core.py:danse", "danse_toolbox/d_base.py:initialize_events", "danse_toolbox/d_base.py:danse_compression_whole_chunk", "danse_toolbox/d_classes.py:update_and_estimate", "danse_toolbox/d_classes.py:process_incoming_signals_buffers_centr"]}
{"id": "C132", "title": "A synchronous run with efficient few-sample broadcasts (the default) completes", "statement": "All clocks at the same rate, efficientSpSBC on: a node gathers its samples and broadcasts a multiple of L of them right before its neighbours update. If Ns + L <= N + 1, or L divides Ns <= N, the schedule is built and the run goes through without an exception, whatever filters (with the right number of bins) the nodes compute; with the MWF update, or with the GEVD update if the linear algebra calls return, this is the whole of online DANSE. If L divides Ns, asking for centralised and single-sensor-broadcast estimates never stops the run (single-sensor-broadcast: fully connected network).", "quantifier": "every network with mutual neighbours, recording, length, sampling rate, frame size, overlap, broadcast length, order of updates", "why_tests_cant": "Ranges over all recordings, lengths, networks and frame sizes.", "anchors": ["danse_toolbox/d_core.py:danse", "danse_toolbox/d_base.py:initialize_events", "danse_toolbox/d_base.py:prep_evmat_build", "danse_toolbox/d_base.py:danse_compression_few_samples", "danse_toolbox/d_classes.py:broadcast", "danse_toolbox/d_classes.py:process_incoming_signals_buffers"]}
{"id": "C133", "title": "TI-DANSE with efficient few-sample broadcasts (the default) completes, with its driver", "statement": "Synchronous nodes, efficientSpSBC on, L divides Ns, frames of even length, trees of any shape: the schedule is built and the TI-DANSE run goes through without an exception, whatever filters the nodes compute; if nodes do not update in turns this is the whole of online TI-DANSE, with all its covariance and filter updates. In a connected network the speech-only and noise-only re-runs of the driver, which get the pruned tree as their network, have the schedule and the trees of the run on the recordings; so the driver ends like that run, and filtered speech plus filtered noise is the estimate at every sample of every node.", "quantifier": "every connected network, position of nodes, recording and decomposition of it, length, sampling rate, frame size, broadcast length", "why_tests_cant": "Ranges over all networks, recordings and frame sizes.", "anchors": ["danse_toolbox/d_core.py:tidanse", "danse_toolbox/d_base.py:initialize_events", "danse_toolbox/d_base.py:prep_evmat_build", "danse_toolbox/d_classes.py:ti_fusion", "danse_toolbox/d_classes.py:ti_compression_few_samples", "tests/sandbox.py:danse_it_up"]}
{"id": "C134", "title": "Efficient broadcasts lose nothing: single-sensor neighbours that do not fuse are as good as wired (default broadcasts)", "statement": "Synchronous nodes, few-sample broadcasts with efficientSpSBC (the default), broadcast length L dividing the frame shift, shift dividing the frame length. Although a node then broadcasts only right before the updates, no sample is lost or repeated: while a node keeps its initial broadcast filter, at every update of a neighbour, at sample i Ns, the neighbour has its frame that ends at the last multiple of L up to i Ns. So with noFusionAtSingleSensorNodes a node whose neighbours have one sensor each hears, from the first update on, exactly what it would hear with cables to their sensors, aligned to the sample, whatever filters the neighbours have; and without GEVD, once updating has started, its row at every update is in every bin the only solution of the normal equations Ryy w = (Ryy - Rnn) e_ref of the raw sensor signals.", "quantifier": "every network, recording, frame size, broadcast length dividing the shift, update scheme, node and update", "why_tests_cant": "Ranges over all recordings, networks and updates.", "anchors": ["danse_toolbox/d_base.py:prep_evmat_build", "danse_toolbox/d_classes.py:broadcast", "danse_toolbox/d_base.py:danse_compression_few_samples", "danse_toolbox/d_classes.py:process_incoming_signals_buffers", "danse_toolbox/d_classes.py:perform_update"]}
{"id": "C135", "title": "Random pauses of a random source", "statement": "With pauseType 'random', the generated source of n samples gets floor(n / ((min + max) fs) / 2) pauses; whatever the draws, every pause lies within the signal and is at most one sample longer than max*fs; a sample inside a pause is zero and every other sample is the drawn one. At most half of the source plus one sample per pause is silenced, and a source shorter than 2 (min + max) seconds gets no pause at all, so it never falls silent.", "quantifier": "every source signal, pair of pause durations, sampling rate and sequence of draws in [0, 1)", "why_tests_cant": "Ranges over all draws: tests see a few seeds only.", "anchors": ["siggen/utils.py:generate_rand_signal"]}
{"id": "C136", "title": "Evaluation of a simulated synchronisation", "statement": "The squared error curve of a node is the exponentially weighted mean (0.9) of its squared rate errors, so it lies between the smallest and largest error so far and forgets the start geometrically. The settling time is that of the last frame (of 2048 samples) above 1 ppm, and -1 if there is none; a rated node is cut there, shifted by the residual offset and compared with the synchronous signal from there on over the shorter of its length and T_max. The SNR curve of a node never is NaN: it is a number exactly where the power curve exceeds the assumed noise power, which it never goes below. Refuted: that every run with good estimates is rated (one that never exceeds 1 ppm is not); that the smoothed SNR is that of a stationary signal (at both ends half of the window counts as zero: -inf up to 0 dB).", "quantifier": "every sequence of estimates, true rate, sampling rate, recording, noise power and smoothing constant", "why_tests_cant": "Ranges over all estimate histories and recordings.", "anchors": ["dxcpphat/demo_utils.py:compute_node_snr", "dxcpphat/demo_utils.py:evaluate_simulation_results"]}
{"id": "C137", "title": "Shifting a recording by a whole number of samples", "statement": "gen_offset with a whole number o of samples terminates for every real signal of at least one block and returns the samples n + o of the signal (zero before its beginning), faded in over the first half block and out from the end of the last full block on; for o >= 0 leaving at least a block the result has exactly the samples from o to the end of the recording. Refuted: that a delay (o < 0) loses nothing: the result is more than half a block and the delay shorter than the recording.", "quantifier": "every real signal, even block size divisible by four, window whose halves add up to one, and integer offset", "why_tests_cant": "Ranges over all signals, block sizes and offsets; the block loop has no bound.", "anchors": ["dxcpphat/demo_utils.py:gen_offset"]}
{"id": "C138", "title": "The sound files of a run", "statement": "An export that ends normally has written, under different names, exactly the wanted files: for every node the sensor signals, the clean speech at the reference sensor, the estimate if there is one, the fused signal for whole-chunk broadcasts (of an online fully connected run) or the in-network sum (of any other network), and the centralised, local and single-sensor-broadcast estimates that were asked for; each file has the sampling rate of its node and the 16-bit version of its signal. It ends normally exactly if every node has samples and its reference sensor, the requested estimates exist and the fused signals are not empty; if it is stopped by an exception, all nodes before the one concerned have all their files. Refuted: that a batch run in a network that is not fully connected can be exported (with the default broadcasts it stops with ValueError after three files of the first node).", "quantifier": "every set of outputs, network, number of nodes and set of flags", "why_tests_cant": "Ranges over all networks, outputs and points at which an export can stop.", "anchors": ["danse_toolbox/d_post.py:DANSEoutputs.export_sounds", "danse_toolbox/d_post.py:export_sounds", "danse_toolbox/d_post.py:normalize_toint16"]}
{"id": "C139", "title": "TI-DANSE nodes that do not adapt", "statement": "In an online TI-DANSE run a node that never hears enough active and inactive frames, or one sensor of which is dead or repeats another one (with use1stFrameAsBasis), keeps its initial filters to the end of the run and its fused signal is never divided by the weight of the in-network sum; the same holds for its local filter. The exception is node 0 when nodes update in turns: its weight of the sum may be replaced by one. If all other nodes record nothing, a node keeps its initial TI-DANSE filter whatever the trees, although its local filter may be updated.", "quantifier": "every network, tree sequence, schedule, recording, update rule and VAD", "why_tests_cant": "The filters must be unchanged after every update of runs of any length on any recording and any tree", "anchors": ["danse_toolbox/d_classes.py: TIDANSEvariables.ti_update_and_estimate", "danse_toolbox/d_classes.py: normalize_filter_coeff", "danse_toolbox/d_classes.py: check_covariance_matrices", "danse_toolbox/d_core.py: tidanse"]}
{"id": "C140", "title": "A TI-DANSE node that records nothing does not matter", "statement": "In an online TI-DANSE run of synchronous nodes that do not update in turns, a last node that records zeros only can be removed: if the run with it ends normally, so does the run of the network without it, and every other node has the same observations, filters after every update, broadcast filter and output, whatever the topologies, trees, roots and re-rootings of the two networks. (In a DANSE run the dead node stops all others from adapting, C124.)", "quantifier": "every pair of networks and tree sequences, every recording with a silent last node, every set of parameters with simultaneous updates", "why_tests_cant": "Two runs of any length over any two topologies must agree on all observable values", "anchors": ["danse_toolbox/d_classes.py: TIDANSEvariables.ti_compute_partial_sum", "danse_toolbox/d_classes.py: TIDANSEvariables.ti_fusion", "danse_toolbox/d_classes.py: TIDANSEvariables.ti_relay", "danse_toolbox/d_core.py: tidanse"]}
{"id": "C141", "title": "TI-DANSE nodes whose filters select a sensor", "statement": "In an online TI-DANSE run every output sample of a node whose filters select one of its own sensors at every update is the sample of that sensor times the sum, over the frames of its updates, of the products of the analysis and synthesis windows. For synchronous nodes, the schedule of the code and windows whose products add up to one, the output is the sensor signal itself, sample for sample, from the first update to within two frames of the end, whatever the network, its trees and its re-rootings. In particular this is the output of every node that has no reason to adapt (C139): it passes on its reference sensor. The same holds for the local output.", "quantifier": "every network, tree sequence, schedule, recording, window pair and rule by which the filters are computed", "why_tests_cant": "Every output sample of runs of any length over any topology must equal the input sample", "anchors": ["danse_toolbox/d_classes.py: TIDANSEvariables.ti_update_and_estimate", "danse_toolbox/d_classes.py: get_desired_signal", "danse_toolbox/d_base.py: get_desired_sig_chunk", "danse_toolbox/d_core.py: tidanse"]}
{"id": "C142", "title": "The exported fused signals", "statement": "With whole-chunk broadcasts the fused signal that a DANSE run exports for a node is what its neighbours hear: the frame that a neighbour uses at an update is the last N samples (preceded by silence) of the exported signal as it was then, and exported samples never change. While the node's broadcast filter selects one of its sensors (synchronous nodes, N = 2 Ns) the exported signal is the signal of this sensor, without delay, from the second hop on. With few-sample broadcasts the exported signals are empty. The in-network sum that a TI-DANSE run exports for a node is the concatenation of the oldest Ns samples of the sums it used at its updates; when the filters select sensors it is the sum of the selected sensors of the other nodes from sample Ns on, i.e. Ns samples ahead of the other exported signals. Keeping the signals changes nothing else.", "quantifier": "every network, event schedule, recording, frame length, window and rule by which the filters are computed", "why_tests_cant": "Every exported sample of runs of any length must match what was used at every update of every neighbour", "anchors": ["danse_toolbox/d_classes.py: DANSEvariables.broadcast", "danse_toolbox/d_classes.py: TIDANSEvariables.ti_build_ytilde", "danse_toolbox/d_post.py: export_sounds", "danse_toolbox/d_post.py: DANSEoutputs.from_variables"]}
{"id": "C143", "title": "The order of the sensors does not matter", "statement": "If the sensors of the nodes of an online DANSE run are put in another order, the reference sensors keeping their places, then every output, everything sent between nodes and every exception is the same, and the filters are the same ones in the new order, provided the initial covariance matrices do not depend on the order (multiples of the identity) or are replaced by the first frames (use1stFrameAsBasis) and the initial filters select the reference sensors. Refuted for the default initialisation: the random initial matrices are not replaced and distinguish the sensors.", "quantifier": "every network, recording, event schedule, permutation of the sensors of every node, update rule and rank test that do not depend on the order of channels (both update rules of the code do not)", "why_tests_cant": "Two runs of any length must agree in every sample for all recordings and permutations", "anchors": ["danse_toolbox/d_core.py: danse", "danse_toolbox/d_classes.py: DANSEvariables.update_and_estimate", "danse_toolbox/d_classes.py: DANSEvariables.broadcast", "danse_toolbox/d_base.py: init_covmats"]}
{"id": "C144", "title": "The order of the sensors does not matter in TI-DANSE", "statement": "If the sensors of the nodes of an online TI-DANSE run are put in another order, the reference sensors keeping their places, then all in-network sums, outputs and exceptions are the same and the filters are the same ones in the new order (the weight of the in-network sum unchanged), provided the initial covariance matrices do not depend on the order or are replaced by the first frames, and the initial filters select the reference sensors. Refuted for the default initialisation.", "quantifier": "every network, recording, sequence of trees, event schedule, permutation of the sensors of every node, update rule and rank test that do not depend on the order of channels", "why_tests_cant": "Two runs of any length must agree in every sample for all recordings, trees and permutations", "anchors": ["danse_toolbox/d_core.py: tidanse", "danse_toolbox/d_classes.py: TIDANSEvariables.ti_fusion", "danse_toolbox/d_classes.py: TIDANSEvariables.ti_update_and_estimate", "danse_toolbox/d_base.py: init_covmats"]}
{"id": "C145", "title": "The evaluation window", "statement": "After the network is built (or reloaded with other test parameters) without an exception, the enhancement metrics of every node are computed from the sample that startComputeMetricsAt names to the one that endComputeMetricsAt names (first sample and end of the recording for None), found in the voice activity of that node: end or beginning of the first utterance, beginning of the second one (plus x ms), x s or x ms. Times set before do not matter. An exception is IndexError where the pause or utterance does not exist, or the one of float. Refuted: 'the window is not empty', 'an exception leaves the times as they were', 'another string is refused'.", "quantifier": "every network, voice activity, sampling rates, minimum pause, reference string and history of earlier calls", "why_tests_cant": "It must hold for all voice activity patterns, strings and numbers of nodes, and for any times set earlier", "anchors": ["siggen/classes.py: WASN.get_metrics_key_time", "siggen/classes.py: get_key_time", "danse_toolbox/d_classes.py: OutputsForPostProcessing.ensure_consistency", "danse_toolbox/d_classes.py: TestParameters.__post_init__", "danse_toolbox/d_post.py: compute_metrics"]}
{"id": "C146", "title": "Tables of a test battery", "statement": "The tests of the SRO/broadcast-length battery write to different folders, and from the names of the folders SRO and broadcast length are read back exactly. If the length of a whole chunk (Ns) is not one of the tested broadcast lengths, the tables that post-processing builds hold, for every node and every order in which the folders are listed, the score of each test in the row of its SRO and the column of its length, nothing elsewhere, rows and columns in increasing order without repetition. A second call gives the same tables and writes nothing. Refuted: 'for every list of lengths' (a length equal to Ns: the folder that is listed last wins), 'folders to be ignored do not matter' (one that is listed first: exception).", "quantifier": "every list of SROs and broadcast lengths, number of nodes, scores, order of the directory listing, other folders, metrics.pkl present or not", "why_tests_cant": "The order in which a directory is listed is not under control of a test, and the names must be read back for all integers", "anchors": ["tests/battery20230915_sros_asfctofL.py: prepare_test_battery", "tests/battery20230915_pp.py: load_data", "tests/battery20230915_pp.py: get_data"]}
{"id": "C147", "title": "Audio reader", "statement": "If node_ids and mic_ids are None, strings, dictionaries or collections that can be iterated again, a call of AudioReader returns exactly the nodes that are asked for, each with exactly the microphones that are asked for and the signals of their files; it ends with an exception if and only if the microphones of such a node are not known or the signal of one cannot be had; the reader is as it was, so that the next call (for another example) does the same. Refuted: 'whatever the iterable': with an iterator (a generator) for mic_ids only the first node of the first call gets signals, without an exception.", "quantifier": "every example (nodes, microphones, paths), selection of nodes and microphones, outcome of loading a file, history of earlier calls", "why_tests_cant": "All selections and all histories of calls on one reader; whether an iterable survives one loop does not show in a test with one node", "anchors": ["dxcpphat/audio_reader.py: AudioReader.__call__"]}
{"id": "C148", "title": "One-third octave bands of STOI", "statement": "Each band of thirdoct is the bins from the one nearest to its lower edge to before the one nearest to its upper edge; a bin belongs to at most one band, exactly one if it lies between the bins of the lowest and the highest edge, so that the band energies add up to the energy of these bins; the bin of fs/2 belongs to none. Centre frequencies are the geometric means of the edges, three bands to the octave. A band a bin wide that begins below the last bin is not empty; with the values of stoi.py none is. Refuted: 'every band has a bin' (one above fs/2 is empty).", "quantifier": "every sampling rate, FFT size, number of bands, lowest centre frequency, power spectrum", "why_tests_cant": "Real-valued edges against any grid of bins; a gap or an overlap of one bin shows only for some values", "anchors": ["danse_toolbox/mypystoi/utils.py: thirdoct", "danse_toolbox/mypystoi/stoi.py: OBM, CF, stoi_any_fs"]}
{"id": "C149", "title": "Block-wise costs of a battery", "statement": "compute_mmse returns one row per full block of half a second and one column per node: the mean squared difference, in that block, between the clean signal at the reference sensor and the estimate of that node. A cost is zero iff the two agree in the whole block, and the mean over the blocks is the mean squared error over all of them. A sampling rate below 2 Hz raises ZeroDivisionError, an estimate of another length (other than 1) ValueError. Refuted: 'the costs cover the recording' (what comes after the last full block is ignored).", "quantifier": "every number of nodes, length of the recording, sampling rate, signals", "why_tests_cant": "A reshape that mixes nodes and samples, or a block that is off by one, is right for some shapes (one node, one block) and wrong for others", "anchors": ["tests/battery20231013_pp2_mmse.py: compute_mmse"]}
{"id": "C150", "title": "Network-wide compensation of clock offsets in TI-DANSE", "statement": "At every update of a run of tidanse the local frame is the recorded one, with the network-wide compensation or without it, whatever the clocks: refuted 'the network-wide strategy compensates the offsets' (nothing calls estimate_local_clock_drift). Where the offsets are given, the frame of a node at its m-th update is shifted by m times its offset times Ns; a shift by a whole number of samples is a circular delay with a real result, keeps the magnitude of every bin. With the oracle estimation before every update each node would be shifted back by the samples it has run ahead of the roots of its updates, for any order of the updates, and two nodes with the same roots by their relative offset, whatever the roots. An odd transform size raises ValueError.", "quantifier": "every number of nodes, order of the updates, roots, clock offsets, frames, even size of the transform", "why_tests_cant": "The factor accumulates over an unbounded run with changing roots; a test with one update cannot tell accumulation from replacement", "anchors": ["danse_toolbox/d_classes.py: TIDANSEvariables.get_local_phase_shift, estimate_local_clock_drift, ti_build_ytilde, apply_phase_shift_to_td_frame"]}
{"id": "C151", "title": "SNR estimated from the voice activity", "statement": "Where the flags say both, getSNR is 20 log10 of the speech power (mean power of the active samples minus that of the others) over the noise power, and minus infinity if the speech power is not positive. The level of the recording does not matter. Flags after the end are ignored; too few flags raise IndexError if they say both; flags of one kind give an infinite value. get_snr_old gives one value per channel, and for an array that is not square the orientation does not matter. Refuted: 'the value is the ratio in dB' (a ratio of r dB gives 2r).", "quantifier": "every recording, flags, level, number of channels", "why_tests_cant": "Sample counts, masks and orientation interact; a test fixes one shape", "anchors": ["danse_toolbox/d_eval.py: getSNR, get_snr_old"]}
{"id": "C152", "title": "Random impulse responses", "statement": "There is one response for every node, sensor and source, each made from a draw of its own. A response has int(duration * fs) samples; with the uniform distribution no sample exceeds the limits in magnitude, whatever the decay; with the decay 'immediate' it is a non-negative gain at time 0. An unknown distribution raises UnboundLocalError, a response shorter than one sample with 'immediate' IndexError. Refuted: 'an unknown decay is refused' (it is no decay).", "quantifier": "every number of nodes, sensors and sources, every sequence of random numbers, duration, rate and limits", "why_tests_cant": "Random: a test sees one stream of random numbers, and cannot tell a shared draw from its own", "anchors": ["siggen/utils.py: generate_random_rir, generate_random_impulse_responses"]}
