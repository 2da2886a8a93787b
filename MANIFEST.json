{
 "claims": [
  {
   "property": "C01",
   "status": "proved",
   "theorems": [
    "Verif.Heap.step_correct",
    "Verif.Heap.run_valid",
    "Verif.Heap.pop_permutes",
    "Verif.Heap.empty_valid"
   ],
   "note": "Any total-preorder comparison, any array, any legal history; no out-of-bounds access."
  },
  {
   "property": "C02",
   "status": "proved",
   "theorems": [
    "Verif.Heap.pop_is_delete_min",
    "Verif.Heap.popAll_sorts",
    "Verif.Heap.step_correct"
   ],
   "note": ""
  },
  {
   "property": "C03",
   "status": "proved",
   "theorems": [
    "Verif.Qsort.sort_correct",
    "Verif.Qsort.sort_whole",
    "Verif.Qsort.sort_empty"
   ],
   "note": ""
  },
  {
   "property": "C04",
   "status": "proved",
   "theorems": [
    "Verif.Random.shuffle_perm",
    "Verif.Random.shuffle_each_permutation_once",
    "Verif.Random.permuteIndexes_perm_partial",
    "Verif.Random.permuteIndexes_large_is_unsafe",
    "Verif.Random.shuffle_with_mt"
   ],
   "note": "vl_rand_permute_indexes is correct up to 2^31 elements; beyond, the cast to vl_int makes it unsafe (refuted)."
  },
  {
   "property": "C05",
   "status": "proved",
   "theorems": [
    "Verif.Random.uindex_lt",
    "Verif.Random.uindex_zero",
    "Verif.Random.int31_range",
    "Verif.Random.int63_range",
    "Verif.Random.uint64_value",
    "Verif.Random.real1_range",
    "Verif.Random.real2_range",
    "Verif.Random.real3_range",
    "Verif.Random.res53_range"
   ],
   "note": "Real-valued outputs as exact rationals (rounding not modelled). A zero range divides by zero."
  },
  {
   "property": "C06",
   "status": "proved",
   "theorems": [
    "Verif.Random.seeded_stream",
    "Verif.Random.seed_forgets",
    "Verif.Random.unseeded_stream",
    "Verif.Random.array_seeded_stream",
    "Verif.Random.array_seed_forgets",
    "Verif.Random.array_seed_empty_unsafe",
    "Verif.Random.temper_bijective"
   ],
   "note": ""
  },
  {
   "property": "C07",
   "status": "proved",
   "theorems": [
    "Verif.Isqrt.sqrtUi8_floor",
    "Verif.Isqrt.sqrtUi16_floor",
    "Verif.Isqrt.sqrtUi32_floor",
    "Verif.Isqrt.sqrtUi64_floor",
    "Verif.Isqrt.sqrtUi64_greatest",
    "Verif.Isqrt.sqrtUi8_no_overflow",
    "Verif.Isqrt.sqrtUi16_no_overflow",
    "Verif.Isqrt.sqrtUi32_no_overflow",
    "Verif.Isqrt.sqrtUi64_no_overflow"
   ],
   "note": ""
  },
  {
   "property": "C08",
   "status": "proved",
   "theorems": [
    "Verif.Strings.stored_props",
    "Verif.Strings.copy_stores",
    "Verif.Strings.copy_null",
    "Verif.Strings.copySub_stores",
    "Verif.Strings.copySub_null",
    "Verif.Strings.replaceWildcard_stores",
    "Verif.Strings.replaceWildcard_null",
    "Verif.Strings.basename_stores",
    "Verif.Strings.basename_null",
    "Verif.Strings.copy_length_independent",
    "Verif.Strings.copy_null_nonzero_faults",
    "Verif.Strings.length_correct",
    "Verif.Strings.findCharRev_last"
   ],
   "note": "A NULL destination is legal only with size 0; with a positive size the code dereferences it (copy_null_nonzero_faults)."
  },
  {
   "property": "C09",
   "status": "proved",
   "theorems": [
    "Verif.Strings.replaceWildcard_stores",
    "Verif.Strings.replaceWildcard_null",
    "Verif.Strings.subst_plain",
    "Verif.Strings.subst_append_plain"
   ],
   "note": ""
  },
  {
   "property": "C10",
   "status": "proved",
   "theorems": [
    "Verif.Strings.basename_stores",
    "Verif.Strings.basename_null"
   ],
   "note": ""
  },
  {
   "property": "C11",
   "status": "proved",
   "theorems": [
    "Verif.Strings.caseiCmp_sign",
    "Verif.Strings.caseiCmp_antisymm",
    "Verif.Strings.caseiCmp_trans"
   ],
   "note": "tolower of the C locale."
  },
  {
   "property": "C12",
   "status": "proved",
   "theorems": [
    "Verif.Strings.enumGet_first",
    "Verif.Strings.enumGetCasei_first",
    "Verif.Strings.enumGetByValue_first"
   ],
   "note": ""
  },
  {
   "property": "C13",
   "status": "partial",
   "theorems": [
    "Verif.Strings.parseProtocol_general",
    "Verif.Strings.parseProtocol_none",
    "Verif.Strings.parseProtocol_partial",
    "Verif.Strings.parseProtocol_accepts_prefix",
    "Verif.Strings.parseProtocol_claim_false",
    "Verif.Strings.protocolName_roundtrip"
   ],
   "note": "The claim as stated is false of the code (prefixes of the protocol names are accepted) and is refuted; the exact behaviour is proved."
  },
  {
   "property": "C14",
   "status": "proved",
   "theorems": [
    "Verif.Endian.swap8_effect",
    "Verif.Endian.swap4_effect",
    "Verif.Endian.swap2_effect",
    "Verif.Endian.swap_big_endian_on_wire",
    "Verif.Endian.swap_roundtrip",
    "Verif.Endian.swap_roundtrip_all",
    "Verif.Endian.swap_in_place_corrupts",
    "Verif.Endian.swap2_in_place_loses"
   ],
   "note": "In-place use is refuted."
  },
  {
   "property": "C15",
   "status": "partial",
   "theorems": [
    "Verif.Pgm.written_image_unreadable",
    "Verif.Pgm.accepted_header_invalid",
    "Verif.Pgm.roundtrip_claim_false",
    "Verif.Pgm.payload_roundtrip",
    "Verif.Pgm.payload_big_endian",
    "Verif.Pgm.roundtrip_partial",
    "Verif.Pgm.ascii_pixels"
   ],
   "note": "The header round trip is false for every valid image (inverted test in the reader); refuted. Pixel payload round trip proved."
  },
  {
   "property": "C16",
   "status": "proved",
   "theorems": [
    "Verif.Lbp.initUniform_ok",
    "Verif.Lbp.table_lt",
    "Verif.Lbp.table_constant_and_other",
    "Verif.Lbp.table_run",
    "Verif.Lbp.table_injective",
    "Verif.Lbp.table_count",
    "Verif.Lbp.table_transposed"
   ],
   "note": ""
  },
  {
   "property": "C17",
   "status": "proved",
   "theorems": [
    "Verif.Imop.imintegral_correct",
    "Verif.Imop.rect_sum",
    "Verif.Imop.imintegral_rect"
   ],
   "note": "Any commutative ring, so also modulo 2^32."
  },
  {
   "property": "C18",
   "status": "partial",
   "theorems": [
    "Verif.Imop.imconvcol_correct_partial",
    "Verif.Imop.imconvcol_claim_false",
    "Verif.Imop.imconvcol_late_support_reads_out_of_bounds",
    "Verif.Imop.imconvcol_early_support_wrong"
   ],
   "note": "The full claim is false of the code (supports starting after 1 read out of bounds; supports ending before 0 with continuity padding give 0) and is refuted; proved for all other supports. Exact arithmetic, SSE2 path not modelled."
  },
  {
   "property": "C19",
   "status": "proved",
   "theorems": [
    "Verif.Imop.imconvcoltri_correct"
   ],
   "note": "Exact arithmetic."
  },
  {
   "property": "C20",
   "status": "proved",
   "theorems": [
    "Verif.Imop.distanceTransform_correct",
    "Verif.Imop.distanceTransform_2d",
    "Verif.Imop.distanceTransform_small_coeff"
   ],
   "note": "Exact arithmetic on finite values."
  },
  {
   "property": "C21",
   "status": "proved",
   "theorems": [
    "Verif.Linear.gaussianElimination_correct",
    "Verif.Linear.gaussianElimination_singular",
    "Verif.Linear.solve3_correct",
    "Verif.Linear.solve2_correct",
    "Verif.Linear.gaussianElimination_rejects_small"
   ],
   "note": "Exact arithmetic; the pivot threshold is any positive number. When an error is reported the matrix is nearly singular: it sends a vector with an entry one to less than the threshold."
  },
  {
   "property": "C22",
   "status": "proved",
   "theorems": [
    "Verif.AllPairs.allPairs_two",
    "Verif.AllPairs.allPairs_one",
    "Verif.AllPairs.allPairs_one_symmetric"
   ],
   "note": ""
  },
  {
   "property": "C23",
   "status": "proved",
   "theorems": [
    "Verif.KdTree.forestBuild_exact",
    "Verif.KdTree.forestBuild_correct",
    "Verif.KdTree.buildTree_good",
    "Verif.KdTree.GoodTree.leaves",
    "Verif.KdTree.chooseSplit_ok",
    "Verif.KdTree.meanFallback_claim_false"
   ],
   "note": "Exact arithmetic. forestBuild_correct also covers arbitrary (rounded) statistics under ChooserOk; meanFallback_claim_false shows that the documented fallback for a badly rounded mean fails on ranges that begin at entry zero."
  },
  {
   "property": "C24",
   "status": "proved",
   "theorems": [
    "Verif.KdTree.query_nearest",
    "Verif.KdTree.query_sound",
    "Verif.KdTree.build_query_nearest",
    "Verif.KdTree.l1_wrong",
    "Verif.KdTree.l1_claim_false"
   ],
   "note": "Exact k nearest neighbours for the squared Euclidean distance over any built forest, any query, any k, any searcher state; for any distance and any comparison limit the answer is sound. For the L1 distance the property is refuted with a witness, as announced in the statement. Real arithmetic, no rounding."
  },
  {
   "property": "C25",
   "status": "proved",
   "theorems": [
    "Verif.KdTree.query_fresh",
    "Verif.KdTree.history_independent",
    "Verif.KdTree.batch_schedule_independent"
   ],
   "note": "Any history of queries; any assignment of the queries of a batch to threads and any interleaving of the threads (steps: one query, one copied neighbour). searchId does not wrap around."
  },
  {
   "property": "C26",
   "status": "proved",
   "theorems": [
    "Verif.Ikm.pushLloyd_nearest",
    "Verif.Ikm.pushElkan_nearest",
    "Verif.Ikm.pushElkan_eq_pushLloyd",
    "Verif.Ikm.push_bytes"
   ],
   "note": "Both integer k-means projections give the first nearest centre; the triangle-inequality version equals the exhaustive one."
  },
  {
   "property": "C27",
   "status": "proved",
   "theorems": [
    "Verif.Kmeans.lloyd_correct",
    "Verif.Kmeans.lloydUpdate_correct",
    "Verif.Kmeans.lloydLoop_correct",
    "Verif.Kmeans.IsEnergy.unique",
    "Verif.Kmeans.many_centers_claim_false",
    "Verif.Kmeans.median_claim_false"
   ],
   "note": "Exact arithmetic. With more centres than points the code accesses a block out of bounds (refuted), and with the l1 distance an empty centre stops the median update early (refuted, monotonicity still holds)."
  },
  {
   "property": "C28",
   "status": "proved",
   "theorems": [
    "Verif.Kmeans.elkan_correct",
    "Verif.Kmeans.elkanIter_correct"
   ],
   "note": "Exact arithmetic with an exact square root; both distances."
  },
  {
   "property": "C29",
   "status": "proved",
   "theorems": [
    "Verif.Kmeans.cluster_best",
    "Verif.Kmeans.cluster_nan"
   ],
   "note": "Repetitions on an explicit heap: the object ends with the centres of a repetition of least energy and owns exactly its blocks; cluster_nan covers energies that never compare below the initial best."
  },
  {
   "property": "C30",
   "status": "partial",
   "theorems": [
    "Verif.Kmeans.copy_partial",
    "Verif.Kmeans.copy_claim_false"
   ],
   "note": "Every field and both tables are copied except the initialization method and the energy threshold, which stay uninitialised; the full claim is refuted by a witness."
  },
  {
   "property": "C31",
   "status": "partial",
   "theorems": [
    "Verif.Hikm.push_partial",
    "Verif.Hikm.path_exists",
    "Verif.Hikm.train_push",
    "Verif.Hikm.fitLloyd_good",
    "Verif.Hikm.fitElkan_good",
    "Verif.Hikm.push_claim_false"
   ],
   "note": "Proved for every tree and every datum that has a path, in particular for all data when all nodes have centres and for the training data of every trained tree; refuted for other data when training leaves an empty cluster. The hypothesis on the training of one filter is discharged for both methods."
  },
  {
   "property": "C32",
   "status": "proved",
   "theorems": [
    "Verif.Aib.process_correct",
    "Verif.Aib.reaches_root"
   ],
   "note": "Over any ordered field with a function satisfying the product rule of the logarithm; includes memory safety and the exact set of values that are merged (those with positive probability)."
  },
  {
   "property": "C33",
   "status": "proved",
   "theorems": [
    "Verif.Mser.sortPixels_correct"
   ],
   "note": ""
  },
  {
   "property": "C34",
   "status": "proved",
   "theorems": [
    "Verif.Mser.forest_correct"
   ],
   "note": "images with fewer than 2^32 pixels"
  },
  {
   "property": "C35",
   "status": "proved",
   "theorems": [
    "Verif.Quickshift.process_correct",
    "Verif.Quickshift.process_forest"
   ],
   "note": "quick shift without the medoid variant; exp and sqrt are parameters; sigma non-zero and tau non-negative; distances within tau include the colour term, as in the code"
  },
  {
   "property": "C36",
   "status": "proved",
   "theorems": [
    "Verif.Slic.clean_correct",
    "Verif.Slic.segment_correct"
   ],
   "note": "images with fewer than 2^32 pixels (labels are 32 bit)"
  },
  {
   "property": "C37",
   "status": "partial",
   "theorems": [
    "Verif.Erfill.fill_correct_partial",
    "Verif.Erfill.fill_overrun",
    "Verif.Erfill.fill_error",
    "Verif.Erfill.fillOnce_claim_false",
    "Verif.Erfill.fillDefined_claim_false"
   ],
   "note": "The set of pixels is the region whenever it is not the whole image. The seed is returned twice (fillOnce_claim_false), and when the region is the whole image the list is overrun by one element (fill_overrun)."
  },
  {
   "property": "C38",
   "status": "proved",
   "theorems": [
    "Verif.Toolbox.binsearch_correct"
   ],
   "note": "vl_binsearch, for every sorted vector and query; NaN is not modelled. The search inside vl_imwbackward is not modelled."
  },
  {
   "property": "C39",
   "status": "proved",
   "theorems": [
    "Verif.Toolbox.cummax_correct"
   ],
   "note": "Any number of dimensions, including the choice of the dimension by the MEX driver."
  },
  {
   "property": "C40",
   "status": "proved",
   "theorems": [
    "Verif.Toolbox.calls_correct",
    "Verif.Toolbox.ihashfind_calls"
   ],
   "note": "Counts modulo 2^32; columns of ID are lists of bytes; null vectors are excluded as the function rejects them."
  },
  {
   "property": "C41",
   "status": "proved",
   "theorems": [
    "Verif.Toolbox.inthist_counts",
    "Verif.Toolbox.inthist_correct",
    "Verif.Toolbox.sampleinthist_correct",
    "Verif.Toolbox.inthist_rejects",
    "Verif.Toolbox.layers_claim_false"
   ],
   "note": "Proved for every label image and every list of boxes, over any commutative ring (so with wrap around). For several label maps the labels of the later maps are not checked; the corresponding claim is refuted."
  },
  {
   "property": "C42",
   "status": "proved",
   "theorems": [
    "Verif.Ubc.compare_correct",
    "Verif.Ubc.compare_double",
    "Verif.Ubc.compare_bytes"
   ],
   "note": "Exact arithmetic."
  },
  {
   "property": "C43",
   "status": "proved",
   "theorems": [
    "Verif.Hog.permutation_involution"
   ],
   "note": "The stored table is a permutation, its own inverse, and exchanges exactly the components a left-right flip exchanges; both variants, every number of orientations, any initial contents of the block."
  },
  {
   "property": "C44",
   "status": "partial",
   "theorems": [
    "Verif.Hog.putImage_correct",
    "Verif.Hog.putImage_mass",
    "Verif.Hog.coverage_spec",
    "Verif.Hog.weights_sum",
    "Verif.Hog.putPolarField_partial",
    "Verif.Hog.softPolar_claim_false",
    "Verif.Hog.repeat_claim_false"
   ],
   "note": "Proved for images and, with hard assignment, for polar fields. Soft assignment of polar fields squares the weights (softPolar_claim_false) and a second extraction adds to the norms of the first (repeat_claim_false). Exact arithmetic; square root, arc cosine and pi are parameters."
  },
  {
   "property": "C45",
   "status": "proved",
   "theorems": [
    "Verif.Dsift.process_correct",
    "Verif.Dsift.centres_inside",
    "Verif.Dsift.announced_eq_written"
   ],
   "note": "Every geometry, step and bounds inside the image, after any sequence of calls; both windows. The contents of the convolved gradient images are parameters."
  },
  {
   "property": "C46",
   "status": "proved",
   "theorems": [
    "Verif.Dsift.transpose_correct",
    "Verif.Dsift.transpose_involution"
   ],
   "note": "Every X, Y and T (no divisibility needed)."
  },
  {
   "property": "C47",
   "status": "partial",
   "theorems": [
    "Verif.Scalespace.isEqual_partial",
    "Verif.Scalespace.isEqual_not_reflexive",
    "Verif.Scalespace.isEqual_accepts_different",
    "Verif.Scalespace.isEqual_claim_false"
   ],
   "note": "Refuted as stated: the code compares the first subdivision of one geometry with the last of the other. Proved: counterexamples, and exactly what the test decides."
  },
  {
   "property": "C48",
   "status": "partial",
   "theorems": [
    "Verif.Scalespace.levels_disjoint",
    "Verif.Scalespace.putImage_correct_partial",
    "Verif.Scalespace.putImage_default",
    "Verif.Scalespace.putImage_overflow",
    "Verif.Scalespace.putImage_upsampled_only",
    "Verif.Scalespace.putImage_claim_false"
   ],
   "note": "Levels are disjoint for every geometry. The construction is memory safe and yields the pyramid for the default geometry of every image and for every geometry meeting HeightOk and reaching octave 0; without these conditions it is refuted by two witnesses (heap overflow, failed assertion)."
  },
  {
   "property": "C49",
   "status": "proved",
   "theorems": [
    "Verif.Liop.permIndex_correct",
    "Verif.Liop.permIndex_lex",
    "Verif.Liop.permIndex_onto",
    "Verif.Liop.permIndex_counts"
   ],
   "note": ""
  },
  {
   "property": "C50",
   "status": "proved",
   "theorems": [
    "Verif.Homker.evaluate_correct",
    "Verif.Homker.value_odd",
    "Verif.Homker.value_grid"
   ],
   "note": "Over any ordered field; rounding not modelled. Evaluated on any table that tabulates a function on the grid; Homker.new_correct shows that the tables of the library do."
  },
  {
   "property": "C51",
   "status": "partial",
   "theorems": [
    "Verif.Rodrigues.rodrigues_exact",
    "Verif.Rodrigues.rodrigues_small",
    "Verif.Rodrigues.rodrigues_rotation",
    "Verif.Rodrigues.irodrigues_inverse",
    "Verif.Rodrigues.irodrigues_near_zero",
    "Verif.Rodrigues.irodrigues_near_pi",
    "Verif.Rodrigues.inverse_claim_false"
   ],
   "note": "Over the real numbers; rot w is the matrix exponential of the cross product. The output is the exact rotation and derivative if the length of the vector is at least 1e-6; below, the identity and the derivative at zero, with proved error bounds. The inverse is exact if the sine of the angle is at least 1e-6; the claim for all angles in (0,pi) is refuted (inverse_claim_false): close to pi the code may return the opposite vector."
  },
  {
   "property": "C52",
   "status": "proved",
   "theorems": [
    "Verif.Svm.sdcaStep_ascent",
    "Verif.Svm.sdcaTrain_correct",
    "Verif.Svm.ascent_mono",
    "Verif.Svm.weak_duality",
    "Verif.Svm.newState_holds",
    "Verif.Svm.new_sdcaTrain",
    "Verif.Svm.hinge_isLoss",
    "Verif.Svm.hinge2_isLoss",
    "Verif.Svm.l1_isLoss",
    "Verif.Svm.l2_isLoss"
   ],
   "note": "Exact arithmetic over any ordered field; any order of visits and weights. Samples that are null together with the bias multiplier are excluded (see the separate property that is refuted)."
  },
  {
   "property": "C53",
   "status": "proved",
   "theorems": [
    "Verif.Svm.sgdTrain_correct",
    "Verif.Svm.sgdStep_eq",
    "Verif.Svm.new_sgdTrain",
    "Verif.Svm.logistic_isGrad"
   ],
   "note": "Exact arithmetic; any diagnostic frequency; any loss that meets IsGrad, that is proved for the five losses. The bias learning rate must differ from t + t0 (see the separate property that is refuted)."
  },
  {
   "property": "C54",
   "status": "proved",
   "theorems": [
    "Verif.Gmm.posteriors_correct",
    "Verif.Gmm.posterior_distribution",
    "Verif.Gmm.posteriors_real",
    "Verif.Gmm.maximization_correct",
    "Verif.Gmm.weights_distribution",
    "Verif.Gmm.keepEmpty_claim_false"
   ],
   "note": "Exact arithmetic. The expectation step is Bayes' rule with normal densities; the maximisation step gives weights that sum to one, weighted means, and variances not less than the bounds. Beside it, refuted: components without mass are not left as they are, contrary to the comment in the code (the mean becomes zero)."
  },
  {
   "property": "C55",
   "status": "proved",
   "theorems": [
    "Verif.Vlad.encode_correct",
    "Verif.Vlad.encode_norm",
    "Verif.Vlad.encode_order"
   ],
   "note": "Over any ordered field, rounding not modelled; any order of the parallel loop over clusters, all flags."
  },
  {
   "property": "C56",
   "status": "proved",
   "theorems": [
    "Verif.Fisher.encode_correct",
    "Verif.Fisher.encode_norm",
    "Verif.Fisher.encode_fast_terms",
    "Verif.Fisher.encode_order"
   ],
   "note": "Over any ordered field with square root, exponential and logarithm; rounding not modelled; any order of the parallel loops, all flags."
  },
  {
   "property": "C57",
   "status": "partial",
   "theorems": [
    "Verif.Sift.octaves_correct",
    "Verif.Sift.zero_octaves",
    "Verif.Sift.octavesEnd_claim_false",
    "Verif.Sift.newFilt_O"
   ],
   "note": "Proved for at least one octave; for zero octaves the property is false and refuted."
  },
  {
   "property": "C58",
   "status": "partial",
   "theorems": [
    "Verif.Sift.gradient_claim_false",
    "Verif.Sift.gradient_fresh_partial",
    "Verif.Sift.gradient_one_image_partial"
   ],
   "note": "The property is false: a second image can be described with the gradients of the first. Proved for histories that never return to the octave index of the gradients held, in particular for one image per filter."
  },
  {
   "property": "C59",
   "status": "proved",
   "theorems": [
    "Verif.Sift.detect_correct"
   ],
   "note": "At most four moves; exact arithmetic; powers of two and the scale formula are parameters."
  },
  {
   "property": "C60",
   "status": "proved",
   "theorems": [
    "Verif.Sift.smooth_correct",
    "Verif.Sift.mean3_mass",
    "Verif.Sift.smooth_mass",
    "Verif.Sift.orientations_correct",
    "Verif.Sift.share_sum",
    "Verif.Sift.fastExpn_end"
   ],
   "note": "Exact arithmetic; gradient, table of exponentials and square root are parameters. fastExpn_end shows the table access out of bounds at exactly 25."
  },
  {
   "property": "C61",
   "status": "proved",
   "theorems": [
    "Verif.Threads.mutual_exclusion",
    "Verif.Threads.owner_never_waits",
    "Verif.Threads.free_iff",
    "Verif.Threads.progress"
   ],
   "note": "Any number of threads, all interleavings of single steps, spurious wake-ups included; also no deadlock and no lost wake-up. POSIX variant; the semantics of the pthread calls is assumed."
  },
  {
   "property": "C62",
   "status": "proved",
   "theorems": [
    "Verif.Threads.error_per_thread",
    "Verif.Threads.error_no_dangling"
   ],
   "note": "Any number of threads, all interleavings, thread exit and reuse of freed blocks included; messages truncated at 1023 characters."
  },
  {
   "property": "C63",
   "status": "partial",
   "theorems": [
    "Verif.Getopt.getopt_correct_partial",
    "Verif.Getopt.dashdash",
    "Verif.Getopt.dashdash_claim_false",
    "Verif.Getopt.lone_dash"
   ],
   "note": "Proved for every argument list, option string and option table when no option argument is `-` or `--`. With `--` the claim is false of the code (dashdash says what happens instead, dashdash_claim_false refutes it): the separator overwrites the following argument, and the operands before it are skipped. The argument `-` reads behind the option string."
  },
  {
   "property": "C64",
   "status": "proved",
   "theorems": [
    "Verif.Generic.numElements_correct",
    "Verif.Generic.arrayInit_correct",
    "Verif.Generic.numElements_wraps"
   ],
   "note": "For every shape whose product fits in 64 bits; a witness shows that the condition is needed."
  },
  {
   "property": "C65",
   "status": "partial",
   "theorems": [
    "Verif.Generic.types_partial",
    "Verif.Generic.typeName_unsigned",
    "Verif.Generic.typeName_claim_false"
   ],
   "note": "Sizes proved for every constant; the names are refuted: unsigned types are given the names of the signed ones."
  },
  {
   "property": "C66",
   "status": "proved",
   "theorems": [
    "Verif.Lbp.accumulate_spec",
    "Verif.Lbp.weight_partition",
    "Verif.Lbp.feature_nonneg",
    "Verif.Lbp.feature_transpose",
    "Verif.Lbp.normalizeCell_norm"
   ],
   "note": "Exact arithmetic."
  },
  {
   "property": "C67",
   "status": "proved",
   "theorems": [
    "Verif.Imop.imsmooth_correct",
    "Verif.Imop.gaussFilter_correct",
    "Verif.Imop.imsmooth_constant"
   ],
   "note": "Exact arithmetic; exp is an arbitrary function."
  },
  {
   "property": "C68",
   "status": "proved",
   "theorems": [
    "Verif.Kmeans.randSeed_correct"
   ],
   "note": "Composed with the proved shuffle; exact arithmetic."
  },
  {
   "property": "C69",
   "status": "partial",
   "theorems": [
    "Verif.Kmeans.ppSeed_correct",
    "Verif.Kmeans.ppSeed_distinct",
    "Verif.Kmeans.plus_plus_claim_false"
   ],
   "note": "Sampling proved for all thresholds; distinctness holds for non-zero thresholds and is refuted for a zero one, which vl_rand_real1 can return."
  },
  {
   "property": "C70",
   "status": "proved",
   "theorems": [
    "Verif.Ikm.initRandData_correct"
   ],
   "note": "Any permutation of the data."
  },
  {
   "property": "C71",
   "status": "partial",
   "theorems": [
    "Verif.Ikm.trainLloyd_partial",
    "Verif.Ikm.train_claim_false",
    "Verif.Ikm.empty_claim_false"
   ],
   "note": "Refuted: the assignments are compared with uninitialised memory before the first update, and the centre of an empty cluster becomes zero although the code says it is kept."
  },
  {
   "property": "C72",
   "status": "proved",
   "theorems": [
    "Verif.Sift.solve_correct"
   ],
   "note": "For any number of equations; rational arithmetic."
  },
  {
   "property": "C73",
   "status": "proved",
   "theorems": [
    "Verif.Sift.detect_correct",
    "Verif.Sift.mem_extrema"
   ],
   "note": "Exact arithmetic."
  },
  {
   "property": "C74",
   "status": "partial",
   "theorems": [
    "Verif.Sift.upsampleRows_correct",
    "Verif.Sift.upsampleImage_correct_partial",
    "Verif.Sift.upsample_claim_false"
   ],
   "note": "True for one doubling and for square images, refuted otherwise."
  },
  {
   "property": "C75",
   "status": "partial",
   "theorems": [
    "Verif.Sift.downsample_correct",
    "Verif.Sift.documentedSize_claim_false"
   ],
   "note": "The pixels are as stated; the documented size of the output is refuted."
  },
  {
   "property": "C76",
   "status": "partial",
   "theorems": [
    "Verif.Sift.gradients_correct",
    "Verif.Sift.gradients_claim_false"
   ],
   "note": "Proved for at least 2x2 pixels; refuted without this condition. Modulus and angle are parameters."
  },
  {
   "property": "C77",
   "status": "partial",
   "theorems": [
    "Verif.Sift.keypointDescriptor_correct",
    "Verif.Sift.rawDescriptor_correct",
    "Verif.Sift.keypointDescriptor_skip",
    "Verif.Sift.descriptorWritten_claim_false"
   ],
   "note": "Proved for keypoints not in the last row; for those the function writes nothing (descriptorWritten_claim_false). Exact arithmetic; sine, cosine, square root and 2 pi are parameters; no pixel exactly at the end of the table of exponentials."
  },
  {
   "property": "C78",
   "status": "proved",
   "theorems": [
    "Verif.Sift.descriptor_bounds",
    "Verif.Sift.descrSum_nonneg"
   ],
   "note": "About the closed form of the descriptor of C77; exact arithmetic, square root not below the true one."
  },
  {
   "property": "C79",
   "status": "proved",
   "theorems": [
    "Verif.Sift.keypointInit_correct"
   ],
   "note": "The logarithm is a parameter."
  },
  {
   "property": "C80",
   "status": "partial",
   "theorems": [
    "Verif.Liop.process_correct",
    "Verif.Liop.descriptor_norm",
    "Verif.Liop.process_small",
    "Verif.Liop.processDefined_claim_false"
   ],
   "note": "Proved for patches of side three or more; refuted for side one and two. Exact arithmetic; sine, cosine and square root are parameters."
  },
  {
   "property": "C81",
   "status": "partial",
   "theorems": [
    "Verif.Quickshift.new_density",
    "Verif.Quickshift.process_density_partial",
    "Verif.Quickshift.processDensity_claim_false"
   ],
   "note": "false of the code: a second run adds to the densities of the first; proved for the first run of an object and as an increment for every run"
  },
  {
   "property": "C82",
   "status": "proved",
   "theorems": [
    "Verif.Slic.initCenters_correct",
    "Verif.Slic.assign_correct",
    "Verif.Slic.recompute_correct",
    "Verif.Slic.energy_antitone",
    "Verif.Slic.segment_correct"
   ],
   "note": "exact arithmetic; images with fewer than 2^32 pixels"
  },
  {
   "property": "C83",
   "status": "proved",
   "theorems": [
    "Verif.Mser.process_tree"
   ],
   "note": "exact arithmetic for the variation; images with fewer than 2^32 pixels and at least one"
  },
  {
   "property": "C84",
   "status": "proved",
   "theorems": [
    "Verif.Mser.process_stable"
   ],
   "note": "exact arithmetic"
  },
  {
   "property": "C85",
   "status": "partial",
   "theorems": [
    "Verif.Mser.kept_regions_independent",
    "Verif.Mser.sameResult_claim_false"
   ],
   "note": "false of the code for the list of pixels; proved for the regions that the pixels stand for"
  },
  {
   "property": "C86",
   "status": "proved",
   "theorems": [
    "Verif.Mser.ellFit_correct"
   ],
   "note": "exact arithmetic (the code accumulates in single precision)"
  },
  {
   "property": "C87",
   "status": "proved",
   "theorems": [
    "Verif.Hog.extract_correct",
    "Verif.Hog.feature_bounds"
   ],
   "note": "exact arithmetic; the square root is a parameter; the first extraction (see C44 for the second)"
  },
  {
   "property": "C88",
   "status": "proved",
   "theorems": [
    "Verif.Hog.extract_mirror"
   ],
   "note": "exact arithmetic; the first extraction"
  },
  {
   "property": "C89",
   "status": "proved",
   "theorems": [
    "Verif.Gmm.em_correct",
    "Verif.Gmm.emLoop_spec",
    "Verif.Gmm.restart_spec"
   ],
   "note": "Exact arithmetic; scalar code paths; any thread schedule."
  },
  {
   "property": "C90",
   "status": "proved",
   "theorems": [
    "Verif.Aib.process_correct",
    "Verif.Aib.info_merge_le",
    "Verif.Aib.costs_antitone"
   ],
   "note": "Exact arithmetic; monotonicity for the real logarithm."
  },
  {
   "property": "C91",
   "status": "proved",
   "theorems": [
    "Verif.Homker.new_correct",
    "Verif.Homker.psi_inner"
   ],
   "note": "Exact arithmetic; the inner product over the real numbers."
  },
  {
   "property": "C92",
   "status": "partial",
   "theorems": [
    "Verif.Homker.null_period_claim_false",
    "Verif.Homker.new_null",
    "Verif.Homker.new_correct"
   ],
   "note": "Refuted: the code tests only for a negative period, so a null period divides by zero. The negative case holds by new_correct."
  },
  {
   "property": "C93",
   "status": "proved",
   "theorems": [
    "Verif.Rodrigues.roundtrip",
    "Verif.Rodrigues.irodrigues_inverse",
    "Verif.Rodrigues.irodrigues_near_zero",
    "Verif.Rodrigues.irodrigues_near_pi"
   ],
   "note": "Over the real numbers."
  },
  {
   "property": "C94",
   "status": "proved",
   "theorems": [
    "Verif.Rodrigues.irodrigues_deriv"
   ],
   "note": "Over the real numbers."
  },
  {
   "property": "C95",
   "status": "proved",
   "theorems": [
    "Verif.Svm.sdcaTrain_correct",
    "Verif.Svm.sgdTrain_correct",
    "Verif.Svm.updateStatistics_primal",
    "Verif.Svm.updateStatistics_dual",
    "Verif.Svm.evaluate_correct",
    "Verif.Svm.mainLoop_spec",
    "Verif.Svm.new_isProblem"
   ],
   "note": "Exact arithmetic. A limit of zero iterations, that means no limit, is not modelled."
  },
  {
   "property": "C96",
   "status": "proved",
   "theorems": [
    "Verif.Svm.plain_isData",
    "Verif.Svm.hom_isData",
    "Verif.Svm.innerProductHom_correct",
    "Verif.Svm.accumulateHom_correct",
    "Verif.Svm.homker_evaluate"
   ],
   "note": "Exact arithmetic."
  },
  {
   "property": "C97",
   "status": "partial",
   "theorems": [
    "Verif.Svm.anyBiasRate_claim_false",
    "Verif.Svm.sgdTrain_correct"
   ],
   "note": "Refuted: with the rate 2 and lambda 1 the first iteration divides by zero. Proved if the rate differs from t + t0 for every iteration t."
  },
  {
   "property": "C98",
   "status": "partial",
   "theorems": [
    "Verif.Svm.anySample_claim_false",
    "Verif.Svm.sdcaTrain_correct"
   ],
   "note": "Refuted: a null sample without bias divides by zero. Proved if each sample or the bias multiplier is not null."
  },
  {
   "property": "C99",
   "status": "proved",
   "theorems": [
    "Verif.Svm.logistic_isGrad",
    "Verif.Svm.logisticDca_feasible"
   ],
   "note": "The loss over the real numbers; the update over any ordered field, with arbitrary functions in place of log."
  },
  {
   "property": "C100",
   "status": "proved",
   "theorems": [
    "Verif.Covdet.features_history",
    "Verif.Covdet.append_rep"
   ],
   "note": "Any element size; the memory manager may fail at any call and new memory has arbitrary content."
  },
  {
   "property": "C101",
   "status": "partial",
   "theorems": [
    "Verif.Covdet.reset_claim_false",
    "Verif.Covdet.append_after_reset"
   ],
   "note": "Refuted: vl_covdet_reset frees the features but keeps their number and the buffer size, so reading or adding a feature uses a null pointer. Proved: what happens then."
  },
  {
   "property": "C102",
   "status": "proved",
   "theorems": [
    "Verif.Covdet.nonExtrema_exact",
    "Verif.Covdet.nonExtrema_off",
    "Verif.Covdet.Survivors.unbeaten",
    "Verif.Covdet.Survivors.of_unbeaten",
    "Verif.Covdet.Survivors.beaten"
   ],
   "note": "Exact arithmetic."
  },
  {
   "property": "C103",
   "status": "partial",
   "theorems": [
    "Verif.Covdet.suppression_claim_false",
    "Verif.Covdet.nonExtrema_exact",
    "Verif.Covdet.Survivors.beaten"
   ],
   "note": "Refuted: a feature can be removed by one that is removed afterwards. Proved: a removed feature is dominated by a feature of the input."
  },
  {
   "property": "C104",
   "status": "proved",
   "theorems": [
    "Verif.Covdet.dropOutside_exact",
    "Verif.Covdet.checkInside_iff"
   ],
   "note": "Exact arithmetic; non-negative margin."
  },
  {
   "property": "C105",
   "status": "proved",
   "theorems": [
    "Verif.Covdet.detect_exact",
    "Verif.Covdet.detect_near",
    "Verif.Covdet.outcome_feature",
    "Verif.Covdet.edgeScore_spec"
   ],
   "note": "Exact arithmetic; the response and the scales are parameters; additions succeed (the code ignores a failure). The suppression of non-extrema is a separate property."
  },
  {
   "property": "C106",
   "status": "partial",
   "theorems": [
    "Verif.Covdet.allLevels_claim_false",
    "Verif.Covdet.detect_exact"
   ],
   "note": "Refuted: the last level is never searched, so that nothing is found with one level per octave. Proved: the exact set of levels searched."
  },
  {
   "property": "C107",
   "status": "proved",
   "theorems": [
    "Verif.Imop.imgradient_correct"
   ],
   "note": "Exact arithmetic; modulus and angle are arbitrary functions of the two differences."
  },
  {
   "property": "C108",
   "status": "partial",
   "theorems": [
    "Verif.Imop.anySize_claim_false",
    "Verif.Imop.imgradient_one_row",
    "Verif.Imop.imgradient_correct"
   ],
   "note": "Refuted: the row below is read although there is none. Proved for at least two rows and columns."
  },
  {
   "property": "C109",
   "status": "proved",
   "theorems": [
    "Verif.Covdet.responses_exact",
    "Verif.Covdet.detectAll_exact"
   ],
   "note": "Exact arithmetic; the scale factor and the filters are parameters (their samples are the subject of other properties)."
  },
  {
   "property": "C110",
   "status": "partial",
   "theorems": [
    "Verif.Covdet.dogSign_claim_false",
    "Verif.Covdet.responses_exact"
   ],
   "note": "Refuted: the sign is the opposite of the documented one. Proved: the response is the level minus the next level."
  },
  {
   "property": "C111",
   "status": "proved",
   "theorems": [
    "Verif.Dsift.descriptors_exact"
   ],
   "note": "Exact arithmetic; square root, exponential and direction (a nonnegative number of bins) are parameters; non-null window size."
  },
  {
   "property": "C112",
   "status": "partial",
   "theorems": [
    "Verif.Dsift.shares_claim_false",
    "Verif.Dsift.shares_partial"
   ],
   "note": "Refuted for one orientation: the second part of the modulus replaces the first. Proved for two or more."
  },
  {
   "property": "C113",
   "status": "partial",
   "theorems": [
    "Verif.Dsift.transposedImage_claim_false",
    "Verif.Dsift.transposed_image_partial"
   ],
   "note": "Refuted for two orientations. Proved when the number of orientations is a multiple of four, if the directions of a gradient and of its mirror image add up to a quarter of a turn."
  },
  {
   "property": "C114",
   "status": "proved",
   "theorems": [
    "Verif.Mathop.comparison_exact",
    "Verif.Mathop.comparison_signed",
    "Verif.Mathop.mahalanobis_exact"
   ],
   "note": "Over the real numbers; a division by zero or logarithm of zero would be an error of the model."
  },
  {
   "property": "C115",
   "status": "proved",
   "theorems": [
    "Verif.Mathop.kernel_distance",
    "Verif.Mathop.kernel_psd",
    "Verif.Mathop.distance_metric"
   ],
   "note": "Over the real numbers."
  },
  {
   "property": "C116",
   "status": "partial",
   "theorems": [
    "Verif.Mathop.hellingerTable_claim_false",
    "Verif.Mathop.comparison_exact"
   ],
   "note": "Refuted: the table has twice the value of the Hellinger kernel. Proved: what each function computes."
  },
  {
   "property": "C117",
   "status": "proved",
   "theorems": [
    "Verif.Mathop.simd_same",
    "Verif.Mathop.simd_same3"
   ],
   "note": "Exact arithmetic over any ordered field."
  },
  {
   "property": "C118",
   "status": "proved",
   "theorems": [
    "Verif.Mathop.weightedMean_exact",
    "Verif.Mathop.weightedSigma_exact"
   ],
   "note": "Exact arithmetic over any ordered field."
  },
  {
   "property": "C119",
   "status": "proved",
   "theorems": [
    "Verif.Imop.imconvcol_simd_same",
    "Verif.Imop.imconvcolAny_correct_partial"
   ],
   "note": "Exact arithmetic; destination rows that do not overlap each other or the source."
  },
  {
   "property": "C120",
   "status": "proved",
   "theorems": [
    "Verif.Mathop.mod2pi_exact",
    "Verif.Mathop.mod2pi_range"
   ],
   "note": "Exact arithmetic for the congruence; the range holds for every monotone rounding that keeps 2 pi."
  },
  {
   "property": "C121",
   "status": "partial",
   "theorems": [
    "Verif.Mathop.modEnds_claim_false",
    "Verif.Mathop.mod2pi_diverges",
    "Verif.Mathop.mod2pi_exact"
   ],
   "note": "Refuted: with rounding to nearest the single precision loop never ends at 2^28. Proved: it ends in exact arithmetic."
  },
  {
   "property": "C122",
   "status": "proved",
   "theorems": [
    "Verif.Mathop.floorL_exact",
    "Verif.Mathop.ceilL_exact",
    "Verif.Mathop.roundL_exact"
   ],
   "note": "Exact arithmetic; the range is that of 64-bit long; the branch without lround."
  },
  {
   "property": "C123",
   "status": "proved",
   "theorems": [
    "Verif.Mathop.fastAtan2_error",
    "Verif.Mathop.fastAtan2_null"
   ],
   "note": "Exact arithmetic over the real numbers."
  },
  {
   "property": "C124",
   "status": "partial",
   "theorems": [
    "Verif.Mathop.atanError_claim_false",
    "Verif.Mathop.fastAtan2_error"
   ],
   "note": "Refuted: a vector as short as the machine epsilon gets an angle wrong by 45 degrees. Proved: the bound with the term in epsilon."
  },
  {
   "property": "C125",
   "status": "proved",
   "theorems": [
    "Verif.Mathop.fastResqrt_error",
    "Verif.Mathop.fastSqrt_error"
   ],
   "note": "The bit trick is exact; the Newton steps are in exact arithmetic."
  },
  {
   "property": "C126",
   "status": "partial",
   "theorems": [
    "Verif.Mathop.fastSqrtD_claim_false",
    "Verif.Mathop.fastSqrt_error"
   ],
   "note": "Refuted: the argument is declared float, so numbers above 2^128 have no finite result. Proved: the error bound for the function with a 64-bit argument."
  },
  {
   "property": "C127",
   "status": "proved",
   "theorems": [
    "Verif.Mathop.svd2_exact"
   ],
   "note": "Over the real numbers."
  },
  {
   "property": "C128",
   "status": "partial",
   "theorems": [
    "Verif.Mathop.svdExact_claim_false",
    "Verif.Mathop.svd2_null_column",
    "Verif.Mathop.svd2_exact"
   ],
   "note": "Refuted: for a very small diagonal the sine and the cosine of V are exchanged; a null first column gives a division by zero. Proved outside these cases."
  },
  {
   "property": "C129",
   "status": "partial",
   "theorems": [
    "Verif.Mathop.svdSorted_claim_false",
    "Verif.Mathop.svd2_exact"
   ],
   "note": "Refuted: diag(1,-2) gives (-2, 1). Proved: decreasing absolute values."
  },
  {
   "property": "C130",
   "status": "proved",
   "theorems": [
    "Verif.Covdet.extractPatch_exact",
    "Verif.Covdet.extractPatch_continuity",
    "Verif.Covdet.extractPatch_refuses"
   ],
   "note": "Exact arithmetic over any ordered field; the level is given (its choice is C133)."
  },
  {
   "property": "C131",
   "status": "partial",
   "theorems": [
    "Verif.Covdet.patchInterior_claim_false",
    "Verif.Covdet.extractPatch_inside",
    "Verif.Covdet.bilinear_congr"
   ],
   "note": "Refuted: if the patch reaches the last column, that column is replaced by the last but one. Proved: exact if the patch ends before the last column."
  },
  {
   "property": "C132",
   "status": "partial",
   "theorems": [
    "Verif.Covdet.patchSafe_claim_false",
    "Verif.Covdet.extractPatch_exact"
   ],
   "note": "Refuted: a frame to the left of the image makes the padding write past the buffer. Proved: safe if the patch meets the image."
  },
  {
   "property": "C133",
   "status": "proved",
   "theorems": [
    "Verif.Covdet.chooseLevel_has",
    "Verif.Covdet.chooseLevel_below",
    "Verif.Covdet.chooseLevel_best",
    "Verif.Covdet.chooseLevel_half"
   ],
   "note": "Over the real numbers, positive singular values."
  },
  {
   "property": "C134",
   "status": "partial",
   "theorems": [
    "Verif.Covdet.bestLevel_claim_false",
    "Verif.Covdet.chooseLevel_best",
    "Verif.Covdet.chooseLevel_half"
   ],
   "note": "Refuted: with three levels per octave a better level of the same octave is skipped. Proved for one level per octave, and up to a factor two."
  },
  {
   "property": "C135",
   "status": "proved",
   "theorems": [
    "Verif.Covdet.imageLevels_octaves",
    "Verif.Covdet.imageLevels_levels",
    "Verif.Covdet.imageLevels_valid"
   ],
   "note": "The logarithm is exact."
  },
  {
   "property": "C136",
   "status": "partial",
   "theorems": [
    "Verif.Covdet.anyImage_claim_false",
    "Verif.Covdet.imageLevels_octaves"
   ],
   "note": "Refuted: a 15 by 15 image without doubling has no octave and fails an assertion. Proved: which octaves there are when it succeeds."
  },
  {
   "property": "C137",
   "status": "partial",
   "theorems": [
    "Verif.Covdet.numOctaves_claim_false",
    "Verif.Covdet.numOctaves_zero"
   ],
   "note": "Refuted: with first octave -1 and one octave asked for, three are computed. Proved for first octave zero."
  },
  {
   "property": "C138",
   "status": "proved",
   "theorems": [
    "Verif.Covdet.oriForPatch_correct",
    "Verif.Covdet.oriHist_spec",
    "Verif.Covdet.voteShare_sum"
   ],
   "note": "Exact arithmetic; modulus, angle and mask of the pixels are given; qsort is any function that sorts."
  },
  {
   "property": "C139",
   "status": "partial",
   "theorems": [
    "Verif.Covdet.strongestPeak_claim_false",
    "Verif.Covdet.oriForPatch_correct"
   ],
   "note": "Refuted: the first peaks found are kept, not the strongest. Proved: which peaks are reported."
  },
  {
   "property": "C140",
   "status": "partial",
   "theorems": [
    "Verif.Covdet.someOrientation_claim_false",
    "Verif.Covdet.oriForPatch_correct"
   ],
   "note": "Refuted: a maximum shared by two adjacent bins is no peak. Proved: which peaks are reported."
  },
  {
   "property": "C141",
   "status": "partial",
   "theorems": [
    "Verif.Covdet.maxOrientations_claim_false",
    "Verif.Covdet.maxOrientations_zero",
    "Verif.Covdet.maxOrientations_overflow",
    "Verif.Covdet.oriForPatch_correct"
   ],
   "note": "Refuted: zero gives one orientation, and limits above four write past the array. Proved for one to four."
  },
  {
   "property": "C142",
   "status": "proved",
   "theorems": [
    "Verif.Covdet.extractOrientations_correct",
    "Verif.Covdet.orient_oriented",
    "Verif.Covdet.turned_ellipse"
   ],
   "note": "The orientations of a frame are given (C138); cosine and sine are parameters."
  },
  {
   "property": "C143",
   "status": "proved",
   "theorems": [
    "Verif.Covdet.lapForPatch_correct",
    "Verif.Covdet.lapScores_spec",
    "Verif.Covdet.lapShift_bound"
   ],
   "note": "Exact arithmetic; the filter bank and the power of the scale are parameters."
  },
  {
   "property": "C144",
   "status": "partial",
   "theorems": [
    "Verif.Covdet.lapScore_claim_false",
    "Verif.Covdet.lapScore_double"
   ],
   "note": "Refuted: the correction is twice that of the parabola. Proved: by exactly how much the score is wrong."
  },
  {
   "property": "C145",
   "status": "proved",
   "theorems": [
    "Verif.Covdet.extractLaplacian_correct",
    "Verif.Covdet.rescale_scaled"
   ],
   "note": "The scales of a frame are given (C143)."
  },
  {
   "property": "C146",
   "status": "partial",
   "theorems": [
    "Verif.Covdet.lapKeep_claim_false",
    "Verif.Covdet.extractLaplacian_correct"
   ],
   "note": "Refuted: a feature of null peak score is removed even if it has scales. Proved for the others."
  },
  {
   "property": "C147",
   "status": "proved",
   "theorems": [
    "Verif.Covdet.affineShape_correct",
    "Verif.Covdet.secondMoment_spec"
   ],
   "note": "Over the real numbers; the gradients of the patches are given as any function of the frame."
  },
  {
   "property": "C148",
   "status": "proved",
   "theorems": [
    "Verif.Covdet.affineShape_scale",
    "Verif.Covdet.adapted_svd",
    "Verif.Covdet.hasSvd_unique"
   ],
   "note": "Same assumptions as C147."
  },
  {
   "property": "C149",
   "status": "partial",
   "theorems": [
    "Verif.Covdet.affineFinite_claim_false",
    "Verif.Covdet.affineShape_correct"
   ],
   "note": "Refuted: a patch that changes along a diagonal only gives a division by zero. Proved when the second moments are not nearly singular."
  },
  {
   "property": "C150",
   "status": "partial",
   "theorems": [
    "Verif.Covdet.affineReflect_claim_false",
    "Verif.Covdet.affineShape_scale"
   ],
   "note": "Refuted: for diag(1,-2) the largest stretch is kept, because vl_svd2 returns a negative value. Proved for frames that preserve orientation."
  },
  {
   "property": "C151",
   "status": "partial",
   "theorems": [
    "Verif.Covdet.affineUpright_claim_false",
    "Verif.Covdet.affineShape_correct"
   ],
   "note": "Refuted: the linear solver rejects matrices with entries below 1e-10 and its error is ignored. Proved if the smallest singular value is at least 2e-10."
  },
  {
   "property": "C152",
   "status": "proved",
   "theorems": [
    "Verif.Covdet.extractAffine_correct"
   ],
   "note": "The adaptation of a frame is given (C147)."
  },
  {
   "property": "C153",
   "status": "proved",
   "theorems": [
    "Verif.Toolbox.binsum_all_correct"
   ],
   "note": "One numeric type, without overflow."
  },
  {
   "property": "C154",
   "status": "proved",
   "theorems": [
    "Verif.Toolbox.binsum_dim_correct",
    "Verif.Toolbox.binsum_dim_refused"
   ],
   "note": "For values with the dimensions of the indexes along every dimension; for a scalar along the first three (see C155)."
  },
  {
   "property": "C155",
   "status": "partial",
   "theorems": [
    "Verif.Toolbox.binsumSafe_claim_false",
    "Verif.Toolbox.binsumScalar_claim_false",
    "Verif.Toolbox.binsum_unchecked",
    "Verif.Toolbox.binsum_last_dim",
    "Verif.Toolbox.binsum_dim_correct",
    "Verif.Toolbox.binsum_all_correct"
   ],
   "note": "Refuted: empty values, indexes with other numbers of dimensions and the special case of the last dimension access memory outside the arrays, and a scalar along the fourth dimension gives wrong sums. Proved for arrays of matching dimensions."
  },
  {
   "property": "C156",
   "status": "proved",
   "theorems": [
    "Verif.Toolbox.localmax_correct"
   ],
   "note": "Values in a linear order (no NaN); P at least one and no empty dimension after the first P (see C157)."
  },
  {
   "property": "C157",
   "status": "partial",
   "theorems": [
    "Verif.Toolbox.localmax_claim_false",
    "Verif.Toolbox.localmaxEmpty_claim_false",
    "Verif.Toolbox.localmax_correct"
   ],
   "note": "Refuted: with P = 0 the last elements along the first dimension are skipped, and for a 3 x 3 x 0 array with P = 2 memory outside the array is read. Proved for the other cases."
  },
  {
   "property": "C158",
   "status": "partial",
   "theorems": [
    "Verif.Imop.documentedOffset_claim_false",
    "Verif.Imop.distanceTransform_documented"
   ],
   "note": "Refuted: the code uses (u - u' - offset)^2. Proved with the opposite offset."
  },
  {
   "property": "C159",
   "status": "proved",
   "theorems": [
    "Verif.Toolbox.imdisttf_correct",
    "Verif.Toolbox.imdisttf_negative"
   ],
   "note": "Exact arithmetic; weights zero or larger than the machine epsilon."
  },
  {
   "property": "C160",
   "status": "partial",
   "theorems": [
    "Verif.Toolbox.imdistDoc_claim_false",
    "Verif.Toolbox.imdisttf_documented"
   ],
   "note": "Refuted: the offsets have the opposite sign. Proved with the opposite offsets."
  },
  {
   "property": "C161",
   "status": "proved",
   "theorems": [
    "Verif.Toolbox.warpPoint_correct",
    "Verif.Toolbox.warp_correct"
   ],
   "note": "Exact arithmetic, grid and points without NaN; grids strictly increasing and not empty."
  },
  {
   "property": "C162",
   "status": "partial",
   "theorems": [
    "Verif.Toolbox.warpDSafe_claim_false",
    "Verif.Toolbox.warpD_claim_false",
    "Verif.Toolbox.warpPointD_correct",
    "Verif.Toolbox.warpD_points"
   ],
   "note": "Refuted: on the last row or column the coordinates are read beyond their end, and the derivatives are per cell instead of per unit of length. Proved inside, with the length of the cell as factor."
  },
  {
   "property": "C163",
   "status": "proved",
   "theorems": [
    "Verif.Toolbox.aibhist_correct"
   ],
   "note": "Fewer than 2^32 nodes; the data may also be inner nodes; counts without overflow."
  },
  {
   "property": "C164",
   "status": "partial",
   "theorems": [
    "Verif.Toolbox.aibhistCheck_claim_false",
    "Verif.Toolbox.aibhist_hist_fails",
    "Verif.Toolbox.aibhistHist_claim_false",
    "Verif.Toolbox.aibhistEnds_claim_false",
    "Verif.Toolbox.aibhist_correct"
   ],
   "note": "Refuted: data beyond the tree read outside the array, the option hist always reports an error, and parents that point to the previous node make an endless loop. Proved for trees."
  },
  {
   "property": "C165",
   "status": "proved",
   "theorems": [
    "Verif.Ikm.trainElkan_correct"
   ],
   "note": "Dimension at most 8192, at most 8421504 data, no more centres than data; 32-bit arithmetic is modelled exactly."
  },
  {
   "property": "C166",
   "status": "partial",
   "theorems": [
    "Verif.Ikm.elkanLloyd_claim_false",
    "Verif.Ikm.manyCenters_claim_false",
    "Verif.Ikm.trainElkan_correct"
   ],
   "note": "Refuted: a datum that changes its centre may then miss a nearer one, so that other centres are found than by Lloyd's algorithm, and more centres than data overrun the array of the counts. Proved: C165."
  },
  {
   "property": "C167",
   "status": "proved",
   "theorems": [
    "Verif.Hikm.hikmeans_push",
    "Verif.Hikm.hikmeanspush_correct"
   ],
   "note": "Dimension at most 8192 and at most 8421504 data in training."
  },
  {
   "property": "C168",
   "status": "partial",
   "theorems": [
    "Verif.Hikm.pushArgs_claim_false",
    "Verif.Hikm.pushDepth_claim_false",
    "Verif.Hikm.hikmeanspush_correct"
   ],
   "note": "Refuted: the number of rows of the data is not compared with the tree, and a tree with more levels than its field depth is written beyond the result. Proved: trees saved by vl_hikmeans and data of their dimension."
  },
  {
   "property": "C169",
   "status": "partial",
   "theorems": [
    "Verif.Hikm.maxIters_claim_false",
    "Verif.Hikm.hikmeans_push"
   ],
   "note": "Refuted: the option is parsed and not used. What vl_hikmeans returns for every value of it: C167."
  },
  {
   "property": "C170",
   "status": "proved",
   "theorems": [
    "Verif.Ikm.cmpPair_order",
    "Verif.Ikm.seedOrder_unique",
    "Verif.Ikm.seed_deterministic"
   ],
   "note": "Up to 2^31 data."
  },
  {
   "property": "C171",
   "status": "partial",
   "theorems": [
    "Verif.Ikm.initRand_claim_false",
    "Verif.Ikm.initRand_partial"
   ],
   "note": "Refuted: the distances of random 32-bit centres overflow. Proved: the centres drawn."
  },
  {
   "property": "C172",
   "status": "partial",
   "theorems": [
    "Verif.Quickshift.medoid_partial",
    "Verif.Quickshift.medoid_claim_false"
   ],
   "note": "Refuted: the score is compared to zero, the score of the origin of the coordinates, so a pixel whose window has no score above zero becomes a root. Proved: in every other case the parent is the medoid; the densities."
  },
  {
   "property": "C173",
   "status": "proved",
   "theorems": [
    "Verif.Sift.transposeDescr_correct",
    "Verif.Sift.transposeDescr_involution"
   ],
   "note": ""
  },
  {
   "property": "C174",
   "status": "partial",
   "theorems": [
    "Verif.Sift.korder_order",
    "Verif.Sift.userFrames_correct",
    "Verif.Sift.userFrames_kept",
    "Verif.Sift.lastColumn_claim_false",
    "Verif.Sift.framesKept_claim_false"
   ],
   "note": "Refuted: with Octaves 0 all frames are lost; for a frame in the last column of the image the driver reads a descriptor that was never written. Proved: all other cases, for any qsort that sorts."
  },
  {
   "property": "C175",
   "status": "proved",
   "theorems": [
    "Verif.Sift.detected_correct"
   ],
   "note": "Where the descriptors of the keypoints exist: C176."
  },
  {
   "property": "C176",
   "status": "partial",
   "theorems": [
    "Verif.Sift.detected_partial",
    "Verif.Sift.detected_claim_false"
   ],
   "note": "Refuted for an octave with given content: refinement can move a keypoint to the last row, where vl_sift_calc_keypoint_descriptor returns without writing. Proved: all other keypoints."
  },
  {
   "property": "C177",
   "status": "proved",
   "theorems": [
    "Verif.Toolbox.allDist_correct"
   ],
   "note": "Over an ordered field; the square root is any function with sq 0 = 0."
  },
  {
   "property": "C178",
   "status": "partial",
   "theorems": [
    "Verif.Toolbox.allDist_refuses",
    "Verif.Toolbox.allDist_total_partial",
    "Verif.Toolbox.fullSparse_claim_false"
   ],
   "note": "Refuted: a full first and a sparse second argument are not refused, and the stored elements of the second are read as a full block, beyond their end. Proved: all other pairs."
  },
  {
   "property": "C179",
   "status": "proved",
   "theorems": [
    "Verif.Toolbox.kernel_metric",
    "Verif.Toolbox.hell_real"
   ],
   "note": "About the specification that C177 shows the code to compute, over the reals."
  },
  {
   "property": "C180",
   "status": "proved",
   "theorems": [
    "Verif.Toolbox.unsigned_mod",
    "Verif.Toolbox.uint8_exact",
    "Verif.Toolbox.uint8_limit"
   ],
   "note": "The limit is sharp."
  },
  {
   "property": "C181",
   "status": "proved",
   "theorems": [
    "Verif.Toolbox.imsmoothMex_correct",
    "Verif.Toolbox.imsmoothMex_copy",
    "Verif.Toolbox.kernelFor_mass",
    "Verif.Toolbox.smoothed_constant"
   ],
   "note": "For steps below 2^31; larger ones: C182. The convolutions with SSE2 agree with the modelled ones by C119."
  },
  {
   "property": "C182",
   "status": "partial",
   "theorems": [
    "Verif.Toolbox.imsmoothMex_correct",
    "Verif.Toolbox.imsmoothMex_copy",
    "Verif.Toolbox.imsmooth_sigma_claim_false",
    "Verif.Toolbox.imsmooth_step_claim_false"
   ],
   "note": "Refuted: a sigma of at most -1/4 with sub-sampling is converted to an unsigned integer; a step above INT_MAX is truncated by the call and the convolution writes beyond the temporary image. Proved: sigma in (-1/4, 2^32) and steps below 2^31."
  },
  {
   "property": "C183",
   "status": "proved",
   "theorems": [
    "Verif.KdTree.forest_roundtrip",
    "Verif.KdTree.kdtree_matlab_nearest"
   ],
   "note": "For fewer than 2^30 data and dimension below 2^32 - 1; the classes and names of the fields are not modelled."
  },
  {
   "property": "C184",
   "status": "partial",
   "theorems": [
    "Verif.KdTree.loadTree_total",
    "Verif.KdTree.split_dimension_zero_accepted",
    "Verif.KdTree.data_index_not_checked",
    "Verif.KdTree.empty_tree_reads_outside",
    "Verif.KdTree.shared_child_accepted",
    "Verif.KdTree.forest_checked_claim_false"
   ],
   "note": "Refuted: split dimension 0 and data indices out of range are accepted and the query reads outside its arrays; a tree without nodes is read; nodes that are no tree can be accepted. Proved: a tree with nodes is read safely, and children of accepted nodes are nodes."
  },
  {
   "property": "C185",
   "status": "partial",
   "theorems": [
    "Verif.Kmeans.quantizeAnn_correct",
    "Verif.Kmeans.annBuild_ok",
    "Verif.Kmeans.update_claim_false"
   ],
   "note": "Refuted for a null pointer of distances: update is then ignored and a point can move to a farther centre. Proved otherwise, for at most 2^32 centres."
  },
  {
   "property": "C186",
   "status": "proved",
   "theorems": [
    "Verif.Kmeans.ann_correct",
    "Verif.Kmeans.annBuild_ok"
   ],
   "note": "For at least one and at most as many centres as points (otherwise C27 shows an access out of bounds) and at most 2^32 centres."
  },
  {
   "property": "C187",
   "status": "proved",
   "theorems": [
    "Verif.Gmm.initRand_correct",
    "Verif.Gmm.initKmeans_correct",
    "Verif.Gmm.defaultKmeans_correct"
   ],
   "note": "A component without points gets weight and mean zero and the lower bound as variance. Exact arithmetic."
  },
  {
   "property": "C188",
   "status": "partial",
   "theorems": [
    "Verif.Gmm.gmmCluster_correct",
    "Verif.Gmm.initRand_ok",
    "Verif.Gmm.initKmeans_ok",
    "Verif.Gmm.custom_claim_false"
   ],
   "note": "Refuted for a starting point given by the user and several repetitions: the second repetition starts from memory that was never written. Proved for the other initialisations, for at most 10^6 components."
  },
  {
   "property": "C189",
   "status": "partial",
   "theorems": [
    "Verif.Hog.render_correct",
    "Verif.Hog.freshImage_claim_false"
   ],
   "note": "Refuted for the contents of the output buffer: the glyphs are added to what it contains although the documentation allocates it with vl_malloc. The rest is proved."
  },
  {
   "property": "C190",
   "status": "proved",
   "theorems": [
    "Verif.Hog.drawGlyphs_correct",
    "Verif.Hog.bar_near",
    "Verif.Hog.bar_center"
   ],
   "note": "With exact real arithmetic instead of double."
  },
  {
   "property": "C191",
   "status": "partial",
   "theorems": [
    "Verif.Sift.scaleSpace_correct_partial",
    "Verif.Sift.blur_constant"
   ],
   "note": "Missing: octaves without pixels (C192) and images that are not square doubled more than once (refuted in C74). Exact real arithmetic."
  },
  {
   "property": "C192",
   "status": "partial",
   "theorems": [
    "Verif.Sift.scaleSpace_correct_partial",
    "Verif.Sift.smallImages_claim_false"
   ],
   "note": "Refuted for images with fewer rows than 2^first octave but at least as many columns: the buffers have no pixels and a row is written. Proved when all octaves have pixels, and the image is square or doubled at most once."
  },
  {
   "property": "C193",
   "status": "proved",
   "theorems": [
    "Verif.Covdet.newBank_correct"
   ],
   "note": "With exact real arithmetic."
  },
  {
   "property": "C194",
   "status": "proved",
   "theorems": [
    "Verif.Covdet.response_plane",
    "Verif.Covdet.scales_plane"
   ],
   "note": "With exact real arithmetic; thresholds are compared with the scores, which do not change."
  },
  {
   "property": "C195",
   "status": "proved",
   "theorems": [
    "Verif.Covdet.newMask_correct"
   ],
   "note": "With exact real arithmetic."
  },
  {
   "property": "C196",
   "status": "proved",
   "theorems": [
    "Verif.Plotop.tpfp_correct",
    "Verif.Plotop.roc_rates"
   ],
   "note": "Rational arithmetic; the numbers of positives and negatives given are at least those of the labels, as the code asserts."
  },
  {
   "property": "C197",
   "status": "partial",
   "theorems": [
    "Verif.Plotop.roc_auc",
    "Verif.Plotop.auc_probability",
    "Verif.Plotop.order_claim_false"
   ],
   "note": "Refuted for the order of the samples when scores are equal: ties are broken by position and the area can be 0 or 1. The rest is proved."
  },
  {
   "property": "C198",
   "status": "proved",
   "theorems": [
    "Verif.Plotop.roc_eer"
   ],
   "note": "Rational arithmetic."
  },
  {
   "property": "C199",
   "status": "partial",
   "theorems": [
    "Verif.Plotop.pr_correct_partial",
    "Verif.Plotop.pr_area",
    "Verif.Plotop.pr_prior_partial",
    "Verif.Plotop.precision_claim_false"
   ],
   "note": "Refuted when only negative samples have been retrieved: the precision is 1e-10 divided by their number instead of zero. Proved otherwise, and up to 1e-10 always; the average precision is exact."
  },
  {
   "property": "C200",
   "status": "proved",
   "theorems": [
    "Verif.Plotop.pr_interpolated"
   ],
   "note": "With and without normalised prior."
  },
  {
   "property": "C201",
   "status": "partial",
   "theorems": [
    "Verif.Plotop.pr_ap11_partial",
    "Verif.Plotop.eleven_claim_false"
   ],
   "note": "Refuted for the level 0: the point without samples, of precision one, is included, so that this level always counts one. Proved for the other ten levels."
  },
  {
   "property": "C202",
   "status": "partial",
   "theorems": [
    "Verif.Plotop.stable_retrieved_partial",
    "Verif.Plotop.stable_claim_false"
   ],
   "note": "Refuted for samples of score -inf: their values can be 0 or missing because the vector has the length of the retrieved samples. Proved for retrieved samples."
  },
  {
   "property": "C203",
   "status": "partial",
   "theorems": [
    "Verif.Pgm.readNew_never",
    "Verif.Pgm.readNewF_never",
    "Verif.Pgm.readCloses_claim_false"
   ],
   "note": "Refuted: a file whose header is accepted is left open, because such a header always has two bytes per pixel. Proved: both functions are defined for every file, never return an image, free nothing wrongly, leave no block and close the file otherwise. Allocations succeed in the model."
  },
  {
   "property": "C204",
   "status": "partial",
   "theorems": [
    "Verif.Pgm.write_correct_partial",
    "Verif.Pgm.written_refused",
    "Verif.Pgm.fileRoundtrip_claim_false",
    "Verif.Pgm.stored_claim_false"
   ],
   "note": "Refuted: every file that is written is refused by the reader, and zero is returned when the medium is full at the time the file is closed. Proved: the contents of the file as far as there is room, the error otherwise without buffering, and that nothing else changes."
  },
  {
   "property": "C205",
   "status": "proved",
   "theorems": [
    "Verif.Pgm.writeF_correct"
   ],
   "note": "With exact arithmetic, in which the largest pixel becomes at most 254."
  },
  {
   "property": "C206",
   "status": "proved",
   "theorems": [
    "Verif.Life.kmeans_history"
   ],
   "note": "Allocations succeed. The numerical work of refinement and seeding enters as the values that it leaves in the blocks, which are arbitrary."
  },
  {
   "property": "C207",
   "status": "proved",
   "theorems": [
    "Verif.Life.cluster_keeps_best"
   ],
   "note": "Allocations succeed; the outcome of each repetition is arbitrary. Energies are rational numbers, so no NaN."
  },
  {
   "property": "C208",
   "status": "partial",
   "theorems": [
    "Verif.Life.copy_partial",
    "Verif.Life.copy_claim_false"
   ],
   "note": "Refuted: the initialization method, the least energy variation and the energy of the copy are whatever was in the new block. Proved: everything else is copied into blocks of its own."
  },
  {
   "property": "C209",
   "status": "partial",
   "theorems": [
    "Verif.Life.gmm_history",
    "Verif.Life.gmm_no_leak_claim_false"
   ],
   "note": "Refuted: every mixture that is deleted leaks the block of the lower bounds. Proved: everything else, with exactly that block left. Allocations succeed."
  },
  {
   "property": "C210",
   "status": "proved",
   "theorems": [
    "Verif.Life.gmm_cluster_keeps_best"
   ],
   "note": "Allocations succeed; the outcome of each repetition is arbitrary. Log-likelihoods are rational numbers, so no NaN."
  },
  {
   "property": "C211",
   "status": "partial",
   "theorems": [
    "Verif.Life.custom_partial",
    "Verif.Life.custom_claim_false"
   ],
   "note": "Refuted: the second repetition starts from uninitialised blocks. Proved: one repetition starts from the parameters of the client."
  },
  {
   "property": "C212",
   "status": "partial",
   "theorems": [
    "Verif.Life.gmm_copy_partial",
    "Verif.Life.gmm_copy_claim_false"
   ],
   "note": "Refuted: the lower bounds of the covariances are not copied. Proved: everything else."
  },
  {
   "property": "C213",
   "status": "proved",
   "theorems": [
    "Verif.Life.own_init_dangles"
   ],
   "note": "A behaviour of the code that its users have to know."
  },
  {
   "property": "C214",
   "status": "partial",
   "theorems": [
    "Verif.Life.svm_new_delete",
    "Verif.Life.svm_new_defined",
    "Verif.Life.svm_no_leak_claim_false"
   ],
   "note": "Refuted: the scores are never freed, a failed creation leaves the structure behind, and vl_svm_new dereferences the NULL. Proved: exactly these blocks are left, for every pattern of failures."
  },
  {
   "property": "C215",
   "status": "partial",
   "theorems": [
    "Verif.Life.scalespace_new_delete",
    "Verif.Life.scalespace_null_claim_false"
   ],
   "note": "Refuted: the list of octaves is left behind if an octave cannot be allocated. Proved: everything else, for every pattern of failures."
  },
  {
   "property": "C216",
   "status": "proved",
   "theorems": [
    "Verif.Life.scalespace_copy"
   ],
   "note": "For every pattern of failing allocations."
  },
  {
   "property": "C217",
   "status": "proved",
   "theorems": [
    "Verif.Life.searchers_history"
   ],
   "note": "Pointer model of the doubly linked list. Allocations succeed."
  },
  {
   "property": "C218",
   "status": "partial",
   "theorems": [
    "Verif.Life.forest_delete",
    "Verif.Life.forest_no_leak_claim_false"
   ],
   "note": "Refuted: a forest that is built more than once forgets the trees of the earlier builds. Proved: exactly these blocks are left, none if it is built once."
  },
  {
   "property": "C219",
   "status": "partial",
   "theorems": [
    "Verif.Life.searcher_visits_partial",
    "Verif.Life.searcher_visits_claim_false"
   ],
   "note": "Refuted: a searcher made before a build with more data, such as the one that vl_kdforest_query keeps, is used past the end of its book. Proved: searchers made after the last build."
  },
  {
   "property": "C220",
   "status": "partial",
   "theorems": [
    "Verif.Life.dsift_history",
    "Verif.Life.dsift_ready_claim_false"
   ],
   "note": "Refuted: a change of the settings changes the announced number at once, while the buffers are replaced by the next image only. Proved: the rest. Allocations succeed; the computed values are arbitrary."
  },
  {
   "property": "C221",
   "status": "proved",
   "theorems": [
    "Verif.Life.mser_history"
   ],
   "note": "Allocations succeed; the regions and ellipsoids found in each image are arbitrary."
  },
  {
   "property": "C222",
   "status": "partial",
   "theorems": [
    "Verif.Life.hikm_history",
    "Verif.Life.hikm_no_leak_partial",
    "Verif.Life.hikm_no_leak_claim_false"
   ],
   "note": "Refuted: training a tree that has been trained forgets its nodes. Proved: every history is defined, and nothing is left if the tree is initialised before each training."
  },
  {
   "property": "C223",
   "status": "partial",
   "theorems": [
    "Verif.KdTree.chooseSplit_top",
    "Verif.KdTree.forestBuild_top_partial",
    "Verif.KdTree.AmongTop.one",
    "Verif.KdTree.split_claim_false"
   ],
   "note": "Refuted for nodes with more than 1024 points: the samples are taken from the first 1024 points of the range only, so that points that differ can be left in one leaf. Proved: all nodes and leaves with at most 1024 points. Rounding is not modelled."
  },
  {
   "property": "C224",
   "status": "partial",
   "theorems": [
    "Verif.Pgm.header_partial",
    "Verif.Pgm.header_claim_false"
   ],
   "note": "Refuted: headers of valid images are refused because the test of the maximum value is inverted. Proved: the answer for every header of the documented form; the fields are always found."
  },
  {
   "property": "C225",
   "status": "proved",
   "theorems": [
    "Verif.Pgm.text_pixels",
    "Verif.Pgm.text_short"
   ],
   "note": "For vl_pgm_extract_data given the preamble; no header of a valid image is accepted (C15, C224)."
  },
  {
   "property": "C226",
   "status": "partial",
   "theorems": [
    "Verif.Life.covdet_memory",
    "Verif.Life.covdet_defined_partial",
    "Verif.Life.covdet_claim_false"
   ],
   "note": "Refuted: a setting changed after features were found frees them without resetting the counts, so that the next feature is written through NULL; and if an octave cannot be allocated one block is left per image (C215). Proved: no other block is ever lost, and every history without a reset after features is defined if no request fails."
  },
  {
   "property": "C227",
   "status": "proved",
   "theorems": [
    "Verif.Host.cpu_flags",
    "Verif.Host.cpu_text"
   ],
   "note": "Whether the operating system saves the AVX registers is not tested by the code and not part of the property."
  },
  {
   "property": "C228",
   "status": "partial",
   "theorems": [
    "Verif.Host.conf_text_partial",
    "Verif.Host.conf_generic_undefined",
    "Verif.Host.conf_null_undefined",
    "Verif.Host.conf_claim_false"
   ],
   "note": "Refuted: on processors other than x86 a string literal is freed, and if one of the two parts cannot be allocated NULL is printed as a text. Proved: everything else."
  },
  {
   "property": "C229",
   "status": "proved",
   "theorems": [
    "Verif.Threads.threads_independent"
   ],
   "note": "With POSIX threads. A call is one step of the model and allocations succeed; times are in ticks."
  },
  {
   "property": "C230",
   "status": "partial",
   "theorems": [
    "Verif.Threads.forests_local_partial",
    "Verif.Threads.forest_dangles",
    "Verif.Threads.forest_takes_numbers",
    "Verif.Threads.forest_claim_false"
   ],
   "note": "Refuted: a forest keeps a pointer to the generator of the thread that made it, so that building it in another thread takes the numbers of the first one, and uses freed memory if the first one has ended. Proved: forests that are built by the thread that made them."
  },
  {
   "property": "C231",
   "status": "proved",
   "theorems": [
    "Verif.Life.sift_history"
   ],
   "note": "A keypoint is one element of a block; the computed pixels are parameters; allocations succeed. Octaves are not larger than the first one and smoothings are not void, as in the two functions that process octaves."
  },
  {
   "property": "C232",
   "status": "proved",
   "theorems": [
    "Verif.Life.hog_history"
   ],
   "note": "What the pixels of an image add to each bin is a parameter (see C44); allocations succeed. A second extraction of the same image is not covered: it adds the norms again (C44)."
  },
  {
   "property": "C233",
   "status": "proved",
   "theorems": [
    "Verif.Life.svmdata_history",
    "Verif.Life.svmdata_no_leak"
   ],
   "note": "The maps belong to the user and outlive the data set, as documented; their values are those of C91. The functions are queried again after a map is set, as documented."
  },
  {
   "property": "C234",
   "status": "partial",
   "theorems": [
    "Verif.Life.svmdata_null_undefined",
    "Verif.Life.sd_fail_claim_false",
    "Verif.Life.svmdata_no_leak"
   ],
   "note": "Refuted: the failure is not noticed, and the first use of a vector writes to NULL. Proved: the memory is given back."
  },
  {
   "property": "C235",
   "status": "partial",
   "theorems": [
    "Verif.Host.select_runs_partial",
    "Verif.Host.select_off",
    "Verif.Host.select_avx_undefined",
    "Verif.Host.select_claim_false"
   ],
   "note": "Refuted: only the AVX bit of the processor is read, not OSXSAVE or XCR0, so AVX instructions are executed where the operating system has not enabled them. Proved: on machines whose announced AVX is enabled; plain code after it is switched off, on all machines."
  },
  {
   "property": "C236",
   "status": "partial",
   "theorems": [
    "Verif.Life.temp_history_partial",
    "Verif.Life.tri_leak",
    "Verif.Life.temp_claim_false"
   ],
   "note": "Refuted: vl_imconvcoltri returns without freeing its buffer if the image has no rows. Proved for all other calls. The values in the blocks are parameters; requests of memory succeed."
  },
  {
   "property": "C237",
   "status": "proved",
   "theorems": [
    "Verif.Life.liop_history"
   ],
   "note": "The order of the pixels and the values of the neighbours are parameters (C49, C80). Requests of memory succeed."
  },
  {
   "property": "C238",
   "status": "proved",
   "theorems": [
    "Verif.Life.quickshift_history"
   ],
   "note": "The contributions to the densities, the parents and the distances are parameters (C35, C81, C172). That the densities add up over runs is the fault of C81. Requests of memory succeed."
  },
  {
   "property": "C239",
   "status": "proved",
   "theorems": [
    "Verif.Covdet.turn_correct"
   ],
   "note": "Over the reals. How orientations are found in the patch is in C138 to C142; for matrices that vl_svd2 does not decompose see C127 and C128."
  }
 ]
}