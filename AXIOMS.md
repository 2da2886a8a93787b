# Axioms of the theorems named in MANIFEST.json

Output of `#print axioms`.

| theorem | axioms |
|---|---|
| Verif.Heap.step_correct | propext, Classical.choice, Quot.sound |
| Verif.Heap.run_valid | propext, Classical.choice, Quot.sound |
| Verif.Heap.pop_permutes | propext, Classical.choice, Quot.sound |
| Verif.Heap.empty_valid | propext |
| Verif.Heap.pop_is_delete_min | propext, Classical.choice, Quot.sound |
| Verif.Heap.popAll_sorts | propext, Classical.choice, Quot.sound |
| Verif.Qsort.sort_correct | propext, Classical.choice, Quot.sound |
| Verif.Qsort.sort_whole | propext, Classical.choice, Quot.sound |
| Verif.Qsort.sort_empty | propext, Quot.sound |
| Verif.Random.shuffle_perm | propext, Quot.sound |
| Verif.Random.shuffle_each_permutation_once | propext, Classical.choice, Quot.sound |
| Verif.Random.permuteIndexes_perm_partial | propext, Quot.sound |
| Verif.Random.permuteIndexes_large_is_unsafe | propext |
| Verif.Random.shuffle_with_mt | propext, Quot.sound |
| Verif.Random.uindex_lt | propext, Quot.sound |
| Verif.Random.uindex_zero | propext, Classical.choice, Quot.sound |
| Verif.Random.int31_range | propext, Classical.choice, Quot.sound |
| Verif.Random.int63_range | propext, Classical.choice, Quot.sound |
| Verif.Random.uint64_value | propext, Quot.sound |
| Verif.Random.real1_range | propext, Classical.choice, Quot.sound |
| Verif.Random.real2_range | propext, Classical.choice, Quot.sound |
| Verif.Random.real3_range | propext, Classical.choice, Quot.sound |
| Verif.Random.res53_range | propext, Classical.choice, Quot.sound |
| Verif.Random.seeded_stream | propext, Quot.sound |
| Verif.Random.seed_forgets | propext, Quot.sound |
| Verif.Random.unseeded_stream | propext, Quot.sound |
| Verif.Random.array_seeded_stream | propext, Quot.sound |
| Verif.Random.array_seed_forgets | propext, Quot.sound |
| Verif.Random.array_seed_empty_unsafe | propext, Quot.sound |
| Verif.Random.temper_bijective | propext, Classical.choice, Quot.sound |
| Verif.Isqrt.sqrtUi8_floor | propext, Classical.choice, Quot.sound |
| Verif.Isqrt.sqrtUi16_floor | propext, Classical.choice, Quot.sound |
| Verif.Isqrt.sqrtUi32_floor | propext, Classical.choice, Quot.sound |
| Verif.Isqrt.sqrtUi64_floor | propext, Classical.choice, Quot.sound |
| Verif.Isqrt.sqrtUi64_greatest | propext, Classical.choice, Quot.sound |
| Verif.Isqrt.sqrtUi8_no_overflow | propext, Classical.choice, Quot.sound |
| Verif.Isqrt.sqrtUi16_no_overflow | propext, Classical.choice, Quot.sound |
| Verif.Isqrt.sqrtUi32_no_overflow | propext, Classical.choice, Quot.sound |
| Verif.Isqrt.sqrtUi64_no_overflow | propext, Classical.choice, Quot.sound |
| Verif.Strings.stored_props | propext, Classical.choice, Quot.sound |
| Verif.Strings.copy_stores | propext, Quot.sound |
| Verif.Strings.copy_null | propext, Quot.sound |
| Verif.Strings.copySub_stores | propext, Classical.choice, Quot.sound |
| Verif.Strings.copySub_null | propext, Classical.choice, Quot.sound |
| Verif.Strings.replaceWildcard_stores | propext, Quot.sound |
| Verif.Strings.replaceWildcard_null | propext, Quot.sound |
| Verif.Strings.basename_stores | propext, Classical.choice, Quot.sound |
| Verif.Strings.basename_null | propext, Classical.choice, Quot.sound |
| Verif.Strings.copy_length_independent | propext, Quot.sound |
| Verif.Strings.copy_null_nonzero_faults | propext, Classical.choice, Quot.sound |
| Verif.Strings.length_correct | propext |
| Verif.Strings.findCharRev_last | propext, Quot.sound |
| Verif.Strings.subst_plain | propext |
| Verif.Strings.subst_append_plain | propext |
| Verif.Strings.caseiCmp_sign | propext, Classical.choice, Quot.sound |
| Verif.Strings.caseiCmp_antisymm | propext |
| Verif.Strings.caseiCmp_trans | propext, Classical.choice, Quot.sound |
| Verif.Strings.enumGet_first | propext, Quot.sound |
| Verif.Strings.enumGetCasei_first | propext, Classical.choice, Quot.sound |
| Verif.Strings.enumGetByValue_first | propext, Quot.sound |
| Verif.Strings.parseProtocol_general | propext, Classical.choice, Quot.sound |
| Verif.Strings.parseProtocol_none | propext, Classical.choice, Quot.sound |
| Verif.Strings.parseProtocol_partial | propext, Classical.choice, Quot.sound |
| Verif.Strings.parseProtocol_accepts_prefix | propext |
| Verif.Strings.parseProtocol_claim_false | propext |
| Verif.Strings.protocolName_roundtrip | propext, Classical.choice, Quot.sound |
| Verif.Endian.swap8_effect | propext, Classical.choice, Quot.sound |
| Verif.Endian.swap4_effect | propext, Classical.choice, Quot.sound |
| Verif.Endian.swap2_effect | propext, Classical.choice, Quot.sound |
| Verif.Endian.swap_big_endian_on_wire | propext, Quot.sound |
| Verif.Endian.swap_roundtrip | propext |
| Verif.Endian.swap_roundtrip_all | propext, Classical.choice, Quot.sound |
| Verif.Endian.swap_in_place_corrupts | propext |
| Verif.Endian.swap2_in_place_loses | propext |
| Verif.Pgm.written_image_unreadable | propext, Quot.sound |
| Verif.Pgm.accepted_header_invalid | propext, Classical.choice, Quot.sound |
| Verif.Pgm.roundtrip_claim_false | propext, Classical.choice, Quot.sound |
| Verif.Pgm.payload_roundtrip | propext, Quot.sound |
| Verif.Pgm.payload_big_endian | propext, Classical.choice, Quot.sound |
| Verif.Pgm.roundtrip_partial | propext, Quot.sound |
| Verif.Pgm.ascii_pixels | propext, Quot.sound |
| Verif.Lbp.initUniform_ok | propext |
| Verif.Lbp.table_lt | propext, Quot.sound |
| Verif.Lbp.table_constant_and_other | propext |
| Verif.Lbp.table_run | propext |
| Verif.Lbp.table_injective | propext, Quot.sound |
| Verif.Lbp.table_count | propext |
| Verif.Lbp.table_transposed | propext |
| Verif.Imop.imintegral_correct | propext, Classical.choice, Quot.sound |
| Verif.Imop.rect_sum | propext, Classical.choice, Quot.sound |
| Verif.Imop.imintegral_rect | propext, Classical.choice, Quot.sound |
| Verif.Imop.imconvcol_correct_partial | propext, Classical.choice, Quot.sound |
| Verif.Imop.imconvcol_claim_false | propext, Classical.choice, Quot.sound |
| Verif.Imop.imconvcol_late_support_reads_out_of_bounds | propext |
| Verif.Imop.imconvcol_early_support_wrong | propext, Classical.choice, Quot.sound |
| Verif.Imop.imconvcoltri_correct | propext, Classical.choice, Quot.sound |
| Verif.Imop.distanceTransform_correct | propext, Classical.choice, Quot.sound |
| Verif.Imop.distanceTransform_2d | propext, Classical.choice, Quot.sound |
| Verif.Imop.distanceTransform_small_coeff | propext, Classical.choice, Quot.sound |
| Verif.Linear.gaussianElimination_correct | propext, Classical.choice, Quot.sound |
| Verif.Linear.gaussianElimination_singular | propext, Classical.choice, Quot.sound |
| Verif.Linear.solve3_correct | propext, Classical.choice, Quot.sound |
| Verif.Linear.solve2_correct | propext, Classical.choice, Quot.sound |
| Verif.Linear.gaussianElimination_rejects_small | propext, Classical.choice, Quot.sound |
| Verif.AllPairs.allPairs_two | propext, Classical.choice, Quot.sound |
| Verif.AllPairs.allPairs_one | propext, Classical.choice, Quot.sound |
| Verif.AllPairs.allPairs_one_symmetric | propext, Classical.choice, Quot.sound |
| Verif.KdTree.forestBuild_exact | propext, Classical.choice, Quot.sound |
| Verif.KdTree.forestBuild_correct | propext, Classical.choice, Quot.sound |
| Verif.KdTree.buildTree_good | propext, Classical.choice, Quot.sound |
| Verif.KdTree.GoodTree.leaves | propext, Classical.choice, Quot.sound |
| Verif.KdTree.chooseSplit_ok | propext, Classical.choice, Quot.sound |
| Verif.KdTree.meanFallback_claim_false | propext, Classical.choice, Quot.sound |
| Verif.KdTree.query_nearest | propext, Classical.choice, Quot.sound |
| Verif.KdTree.query_sound | propext, Classical.choice, Quot.sound |
| Verif.KdTree.build_query_nearest | propext, Classical.choice, Quot.sound |
| Verif.KdTree.l1_wrong | propext, Classical.choice, Quot.sound |
| Verif.KdTree.l1_claim_false | propext, Classical.choice, Quot.sound |
| Verif.KdTree.query_fresh | propext, Classical.choice, Quot.sound |
| Verif.KdTree.history_independent | propext, Classical.choice, Quot.sound |
| Verif.KdTree.batch_schedule_independent | propext, Classical.choice, Quot.sound |
| Verif.Ikm.pushLloyd_nearest | propext, Classical.choice, Quot.sound |
| Verif.Ikm.pushElkan_nearest | propext, Classical.choice, Quot.sound |
| Verif.Ikm.pushElkan_eq_pushLloyd | propext, Classical.choice, Quot.sound |
| Verif.Ikm.push_bytes | propext, Classical.choice, Quot.sound |
| Verif.Kmeans.lloyd_correct | propext, Classical.choice, Quot.sound |
| Verif.Kmeans.lloydUpdate_correct | propext, Classical.choice, Quot.sound |
| Verif.Kmeans.lloydLoop_correct | propext, Classical.choice, Quot.sound |
| Verif.Kmeans.IsEnergy.unique | propext, Classical.choice, Quot.sound |
| Verif.Kmeans.many_centers_claim_false | propext, Classical.choice, Quot.sound |
| Verif.Kmeans.median_claim_false | propext, Classical.choice, Quot.sound |
| Verif.Kmeans.elkan_correct | propext, Classical.choice, Quot.sound |
| Verif.Kmeans.elkanIter_correct | propext, Classical.choice, Quot.sound |
| Verif.Kmeans.cluster_best | propext, Classical.choice, Quot.sound |
| Verif.Kmeans.cluster_nan | propext, Classical.choice, Quot.sound |
| Verif.Kmeans.copy_partial | propext |
| Verif.Kmeans.copy_claim_false | propext |
| Verif.Hikm.push_partial | propext, Classical.choice, Quot.sound |
| Verif.Hikm.path_exists | propext, Classical.choice, Quot.sound |
| Verif.Hikm.train_push | propext, Classical.choice, Quot.sound |
| Verif.Hikm.fitLloyd_good | propext, Classical.choice, Quot.sound |
| Verif.Hikm.fitElkan_good | propext, Classical.choice, Quot.sound |
| Verif.Hikm.push_claim_false | propext, Quot.sound |
| Verif.Aib.process_correct | propext, Classical.choice, Quot.sound |
| Verif.Aib.reaches_root | propext, Classical.choice, Quot.sound |
| Verif.Mser.sortPixels_correct | propext, Classical.choice, Quot.sound |
| Verif.Mser.forest_correct | propext, Classical.choice, Quot.sound |
| Verif.Quickshift.process_correct | propext, Classical.choice, Quot.sound |
| Verif.Quickshift.process_forest | propext, Classical.choice, Quot.sound |
| Verif.Slic.clean_correct | propext, Classical.choice, Quot.sound |
| Verif.Slic.segment_correct | propext, Classical.choice, Quot.sound |
| Verif.Erfill.fill_correct_partial | propext, Classical.choice, Quot.sound |
| Verif.Erfill.fill_overrun | propext, Classical.choice, Quot.sound |
| Verif.Erfill.fill_error | propext, Quot.sound |
| Verif.Erfill.fillOnce_claim_false | propext, Quot.sound |
| Verif.Erfill.fillDefined_claim_false | propext, Quot.sound |
| Verif.Toolbox.binsearch_correct | propext, Classical.choice, Quot.sound |
| Verif.Toolbox.cummax_correct | propext, Classical.choice, Quot.sound |
| Verif.Toolbox.calls_correct | propext, Classical.choice, Quot.sound |
| Verif.Toolbox.ihashfind_calls | propext, Classical.choice, Quot.sound |
| Verif.Toolbox.inthist_counts | propext, Classical.choice, Quot.sound |
| Verif.Toolbox.inthist_correct | propext, Classical.choice, Quot.sound |
| Verif.Toolbox.sampleinthist_correct | propext, Classical.choice, Quot.sound |
| Verif.Toolbox.inthist_rejects | propext, Classical.choice, Quot.sound |
| Verif.Toolbox.layers_claim_false | propext |
| Verif.Ubc.compare_correct | propext, Classical.choice, Quot.sound |
| Verif.Ubc.compare_double | propext, Classical.choice, Quot.sound |
| Verif.Ubc.compare_bytes | propext, Classical.choice, Quot.sound |
| Verif.Hog.permutation_involution | propext, Classical.choice, Quot.sound |
| Verif.Hog.putImage_correct | propext, Classical.choice, Quot.sound |
| Verif.Hog.putImage_mass | propext, Classical.choice, Quot.sound |
| Verif.Hog.coverage_spec | propext, Classical.choice, Quot.sound |
| Verif.Hog.weights_sum | propext, Classical.choice, Quot.sound |
| Verif.Hog.putPolarField_partial | propext, Classical.choice, Quot.sound |
| Verif.Hog.softPolar_claim_false | propext, Classical.choice, Quot.sound |
| Verif.Hog.repeat_claim_false | propext, Classical.choice, Quot.sound |
| Verif.Dsift.process_correct | propext, Classical.choice, Quot.sound |
| Verif.Dsift.centres_inside | propext, Classical.choice, Quot.sound |
| Verif.Dsift.announced_eq_written | propext, Classical.choice, Quot.sound |
| Verif.Dsift.transpose_correct | propext, Classical.choice, Quot.sound |
| Verif.Dsift.transpose_involution | propext, Classical.choice, Quot.sound |
| Verif.Scalespace.isEqual_partial | propext, Quot.sound |
| Verif.Scalespace.isEqual_not_reflexive | propext, Classical.choice, Quot.sound |
| Verif.Scalespace.isEqual_accepts_different | propext, Classical.choice, Quot.sound |
| Verif.Scalespace.isEqual_claim_false | propext, Classical.choice, Quot.sound |
| Verif.Scalespace.levels_disjoint | propext, Quot.sound |
| Verif.Scalespace.putImage_correct_partial | propext, Classical.choice, Quot.sound |
| Verif.Scalespace.putImage_default | propext, Classical.choice, Quot.sound |
| Verif.Scalespace.putImage_overflow | propext, Classical.choice, Quot.sound |
| Verif.Scalespace.putImage_upsampled_only | propext, Classical.choice, Quot.sound |
| Verif.Scalespace.putImage_claim_false | propext, Classical.choice, Quot.sound |
| Verif.Liop.permIndex_correct | propext, Classical.choice, Quot.sound |
| Verif.Liop.permIndex_lex | propext, Classical.choice, Quot.sound |
| Verif.Liop.permIndex_onto | propext, Classical.choice, Quot.sound |
| Verif.Liop.permIndex_counts | propext, Classical.choice, Quot.sound |
| Verif.Homker.evaluate_correct | propext, Classical.choice, Quot.sound |
| Verif.Homker.value_odd | propext, Classical.choice, Quot.sound |
| Verif.Homker.value_grid | propext, Classical.choice, Quot.sound |
| Verif.Rodrigues.rodrigues_exact | propext, Classical.choice, Quot.sound |
| Verif.Rodrigues.rodrigues_small | propext, Classical.choice, Quot.sound |
| Verif.Rodrigues.rodrigues_rotation | propext, Classical.choice, Quot.sound |
| Verif.Rodrigues.irodrigues_inverse | propext, Classical.choice, Quot.sound |
| Verif.Rodrigues.irodrigues_near_zero | propext, Classical.choice, Quot.sound |
| Verif.Rodrigues.irodrigues_near_pi | propext, Classical.choice, Quot.sound |
| Verif.Rodrigues.inverse_claim_false | propext, Classical.choice, Quot.sound |
| Verif.Svm.sdcaStep_ascent | propext, Classical.choice, Quot.sound |
| Verif.Svm.sdcaTrain_correct | propext, Classical.choice, Quot.sound |
| Verif.Svm.ascent_mono | propext, Classical.choice, Quot.sound |
| Verif.Svm.weak_duality | propext, Classical.choice, Quot.sound |
| Verif.Svm.newState_holds | propext, Classical.choice, Quot.sound |
| Verif.Svm.new_sdcaTrain | propext, Classical.choice, Quot.sound |
| Verif.Svm.hinge_isLoss | propext, Classical.choice, Quot.sound |
| Verif.Svm.hinge2_isLoss | propext, Classical.choice, Quot.sound |
| Verif.Svm.l1_isLoss | propext, Classical.choice, Quot.sound |
| Verif.Svm.l2_isLoss | propext, Classical.choice, Quot.sound |
| Verif.Svm.sgdTrain_correct | propext, Classical.choice, Quot.sound |
| Verif.Svm.sgdStep_eq | propext, Classical.choice, Quot.sound |
| Verif.Svm.new_sgdTrain | propext, Classical.choice, Quot.sound |
| Verif.Svm.logistic_isGrad | propext, Classical.choice, Quot.sound |
| Verif.Gmm.posteriors_correct | propext, Classical.choice, Quot.sound |
| Verif.Gmm.posterior_distribution | propext, Classical.choice, Quot.sound |
| Verif.Gmm.posteriors_real | propext, Classical.choice, Quot.sound |
| Verif.Gmm.maximization_correct | propext, Classical.choice, Quot.sound |
| Verif.Gmm.weights_distribution | propext, Classical.choice, Quot.sound |
| Verif.Gmm.keepEmpty_claim_false | propext, Classical.choice, Quot.sound |
| Verif.Vlad.encode_correct | propext, Classical.choice, Quot.sound |
| Verif.Vlad.encode_norm | propext, Classical.choice, Quot.sound |
| Verif.Vlad.encode_order | propext, Classical.choice, Quot.sound |
| Verif.Fisher.encode_correct | propext, Classical.choice, Quot.sound |
| Verif.Fisher.encode_norm | propext, Classical.choice, Quot.sound |
| Verif.Fisher.encode_fast_terms | propext, Classical.choice, Quot.sound |
| Verif.Fisher.encode_order | propext, Classical.choice, Quot.sound |
| Verif.Sift.octaves_correct | propext, Quot.sound |
| Verif.Sift.zero_octaves | propext, Quot.sound |
| Verif.Sift.octavesEnd_claim_false | propext, Quot.sound |
| Verif.Sift.newFilt_O | propext, Quot.sound |
| Verif.Sift.gradient_claim_false | propext, Quot.sound |
| Verif.Sift.gradient_fresh_partial | propext, Classical.choice, Quot.sound |
| Verif.Sift.gradient_one_image_partial | propext, Classical.choice, Quot.sound |
| Verif.Sift.detect_correct | propext, Classical.choice, Quot.sound |
| Verif.Sift.smooth_correct | propext, Classical.choice, Quot.sound |
| Verif.Sift.mean3_mass | propext, Classical.choice, Quot.sound |
| Verif.Sift.smooth_mass | propext, Classical.choice, Quot.sound |
| Verif.Sift.orientations_correct | propext, Classical.choice, Quot.sound |
| Verif.Sift.share_sum | propext, Classical.choice, Quot.sound |
| Verif.Sift.fastExpn_end | propext, Classical.choice, Quot.sound |
| Verif.Threads.mutual_exclusion | propext, Quot.sound |
| Verif.Threads.owner_never_waits | propext, Quot.sound |
| Verif.Threads.free_iff | propext, Quot.sound |
| Verif.Threads.progress | propext, Classical.choice, Quot.sound |
| Verif.Threads.error_per_thread | propext, Quot.sound |
| Verif.Threads.error_no_dangling | propext, Quot.sound |
| Verif.Getopt.getopt_correct_partial | propext, Classical.choice, Quot.sound |
| Verif.Getopt.dashdash | propext, Quot.sound |
| Verif.Getopt.dashdash_claim_false | propext, Quot.sound |
| Verif.Getopt.lone_dash | propext |
| Verif.Generic.numElements_correct | propext, Quot.sound |
| Verif.Generic.arrayInit_correct | propext, Classical.choice, Quot.sound |
| Verif.Generic.numElements_wraps | propext |
| Verif.Generic.types_partial | propext |
| Verif.Generic.typeName_unsigned | none |
| Verif.Generic.typeName_claim_false | none |
| Verif.Lbp.accumulate_spec | propext, Classical.choice, Quot.sound |
| Verif.Lbp.weight_partition | propext, Classical.choice, Quot.sound |
| Verif.Lbp.feature_nonneg | propext, Classical.choice, Quot.sound |
| Verif.Lbp.feature_transpose | propext, Classical.choice, Quot.sound |
| Verif.Lbp.normalizeCell_norm | propext, Classical.choice, Quot.sound |
| Verif.Imop.imsmooth_correct | propext, Classical.choice, Quot.sound |
| Verif.Imop.gaussFilter_correct | propext, Classical.choice, Quot.sound |
| Verif.Imop.imsmooth_constant | propext, Classical.choice, Quot.sound |
| Verif.Kmeans.randSeed_correct | propext, Classical.choice, Quot.sound |
| Verif.Kmeans.ppSeed_correct | propext, Classical.choice, Quot.sound |
| Verif.Kmeans.ppSeed_distinct | propext, Classical.choice, Quot.sound |
| Verif.Kmeans.plus_plus_claim_false | propext, Classical.choice, Quot.sound |
| Verif.Ikm.initRandData_correct | propext, Classical.choice, Quot.sound |
| Verif.Ikm.trainLloyd_partial | propext, Classical.choice, Quot.sound |
| Verif.Ikm.train_claim_false | propext, Quot.sound |
| Verif.Ikm.empty_claim_false | propext |
| Verif.Sift.solve_correct | propext, Classical.choice, Quot.sound |
| Verif.Sift.mem_extrema | propext, Classical.choice, Quot.sound |
| Verif.Sift.upsampleRows_correct | propext, Classical.choice, Quot.sound |
| Verif.Sift.upsampleImage_correct_partial | propext, Classical.choice, Quot.sound |
| Verif.Sift.upsample_claim_false | propext, Classical.choice, Quot.sound |
| Verif.Sift.downsample_correct | propext, Classical.choice, Quot.sound |
| Verif.Sift.documentedSize_claim_false | propext, Quot.sound |
| Verif.Sift.gradients_correct | propext, Classical.choice, Quot.sound |
| Verif.Sift.gradients_claim_false | propext, Classical.choice, Quot.sound |
| Verif.Sift.keypointDescriptor_correct | propext, Classical.choice, Quot.sound |
| Verif.Sift.rawDescriptor_correct | propext, Classical.choice, Quot.sound |
| Verif.Sift.keypointDescriptor_skip | propext, Classical.choice, Quot.sound |
| Verif.Sift.descriptorWritten_claim_false | propext, Classical.choice, Quot.sound |
| Verif.Sift.descriptor_bounds | propext, Classical.choice, Quot.sound |
| Verif.Sift.descrSum_nonneg | propext, Classical.choice, Quot.sound |
| Verif.Sift.keypointInit_correct | propext, Classical.choice, Quot.sound |
| Verif.Liop.process_correct | propext, Classical.choice, Quot.sound |
| Verif.Liop.descriptor_norm | propext, Classical.choice, Quot.sound |
| Verif.Liop.process_small | propext, Classical.choice, Quot.sound |
| Verif.Liop.processDefined_claim_false | propext, Classical.choice, Quot.sound |
| Verif.Quickshift.new_density | propext, Classical.choice, Quot.sound |
| Verif.Quickshift.process_density_partial | propext, Classical.choice, Quot.sound |
| Verif.Quickshift.processDensity_claim_false | propext, Classical.choice, Quot.sound |
| Verif.Slic.initCenters_correct | propext, Classical.choice, Quot.sound |
| Verif.Slic.assign_correct | propext, Classical.choice, Quot.sound |
| Verif.Slic.recompute_correct | propext, Classical.choice, Quot.sound |
| Verif.Slic.energy_antitone | propext, Classical.choice, Quot.sound |
| Verif.Mser.process_tree | propext, Classical.choice, Quot.sound |
| Verif.Mser.process_stable | propext, Classical.choice, Quot.sound |
| Verif.Mser.kept_regions_independent | propext, Classical.choice, Quot.sound |
| Verif.Mser.sameResult_claim_false | propext, Classical.choice, Quot.sound |
| Verif.Mser.ellFit_correct | propext, Classical.choice, Quot.sound |
| Verif.Hog.extract_correct | propext, Classical.choice, Quot.sound |
| Verif.Hog.feature_bounds | propext, Classical.choice, Quot.sound |
| Verif.Hog.extract_mirror | propext, Classical.choice, Quot.sound |
| Verif.Gmm.em_correct | propext, Classical.choice, Quot.sound |
| Verif.Gmm.emLoop_spec | propext, Classical.choice, Quot.sound |
| Verif.Gmm.restart_spec | propext, Classical.choice, Quot.sound |
| Verif.Aib.info_merge_le | propext, Classical.choice, Quot.sound |
| Verif.Aib.costs_antitone | propext, Classical.choice, Quot.sound |
| Verif.Homker.new_correct | propext, Classical.choice, Quot.sound |
| Verif.Homker.psi_inner | propext, Classical.choice, Quot.sound |
| Verif.Homker.null_period_claim_false | propext, Classical.choice, Quot.sound |
| Verif.Homker.new_null | propext, Classical.choice, Quot.sound |
| Verif.Rodrigues.roundtrip | propext, Classical.choice, Quot.sound |
| Verif.Rodrigues.irodrigues_deriv | propext, Classical.choice, Quot.sound |
| Verif.Svm.updateStatistics_primal | propext, Classical.choice, Quot.sound |
| Verif.Svm.updateStatistics_dual | propext, Classical.choice, Quot.sound |
| Verif.Svm.evaluate_correct | propext, Classical.choice, Quot.sound |
| Verif.Svm.mainLoop_spec | propext, Classical.choice, Quot.sound |
| Verif.Svm.new_isProblem | propext, Classical.choice, Quot.sound |
| Verif.Svm.plain_isData | propext, Classical.choice, Quot.sound |
| Verif.Svm.hom_isData | propext, Classical.choice, Quot.sound |
| Verif.Svm.innerProductHom_correct | propext, Classical.choice, Quot.sound |
| Verif.Svm.accumulateHom_correct | propext, Classical.choice, Quot.sound |
| Verif.Svm.homker_evaluate | propext, Classical.choice, Quot.sound |
| Verif.Svm.anyBiasRate_claim_false | propext, Classical.choice, Quot.sound |
| Verif.Svm.anySample_claim_false | propext, Classical.choice, Quot.sound |
| Verif.Svm.logisticDca_feasible | propext, Classical.choice, Quot.sound |
| Verif.Covdet.features_history | propext, Classical.choice, Quot.sound |
| Verif.Covdet.append_rep | propext, Classical.choice, Quot.sound |
| Verif.Covdet.reset_claim_false | propext, Classical.choice, Quot.sound |
| Verif.Covdet.append_after_reset | propext |
| Verif.Covdet.nonExtrema_exact | propext, Classical.choice, Quot.sound |
| Verif.Covdet.nonExtrema_off | propext, Quot.sound |
| Verif.Covdet.Survivors.unbeaten | propext, Quot.sound |
| Verif.Covdet.Survivors.of_unbeaten | propext, Quot.sound |
| Verif.Covdet.Survivors.beaten | propext, Classical.choice, Quot.sound |
| Verif.Covdet.suppression_claim_false | propext, Classical.choice, Quot.sound |
| Verif.Covdet.dropOutside_exact | propext, Classical.choice, Quot.sound |
| Verif.Covdet.checkInside_iff | propext, Classical.choice, Quot.sound |
| Verif.Covdet.detect_exact | propext, Classical.choice, Quot.sound |
| Verif.Covdet.detect_near | propext, Classical.choice, Quot.sound |
| Verif.Covdet.outcome_feature | propext, Classical.choice, Quot.sound |
| Verif.Covdet.edgeScore_spec | propext, Classical.choice, Quot.sound |
| Verif.Covdet.allLevels_claim_false | propext, Classical.choice, Quot.sound |
| Verif.Imop.imgradient_correct | propext, Classical.choice, Quot.sound |
| Verif.Imop.anySize_claim_false | propext, Classical.choice, Quot.sound |
| Verif.Imop.imgradient_one_row | propext, Quot.sound |
| Verif.Covdet.responses_exact | propext, Classical.choice, Quot.sound |
| Verif.Covdet.detectAll_exact | propext, Classical.choice, Quot.sound |
| Verif.Covdet.dogSign_claim_false | propext, Classical.choice, Quot.sound |
| Verif.Dsift.descriptors_exact | propext, Classical.choice, Quot.sound |
| Verif.Dsift.shares_claim_false | propext, Classical.choice, Quot.sound |
| Verif.Dsift.shares_partial | propext, Classical.choice, Quot.sound |
| Verif.Dsift.transposedImage_claim_false | propext, Classical.choice, Quot.sound |
| Verif.Dsift.transposed_image_partial | propext, Classical.choice, Quot.sound |
| Verif.Mathop.comparison_exact | propext, Classical.choice, Quot.sound |
| Verif.Mathop.comparison_signed | propext, Classical.choice, Quot.sound |
| Verif.Mathop.mahalanobis_exact | propext, Classical.choice, Quot.sound |
| Verif.Mathop.kernel_distance | propext, Classical.choice, Quot.sound |
| Verif.Mathop.kernel_psd | propext, Classical.choice, Quot.sound |
| Verif.Mathop.distance_metric | propext, Classical.choice, Quot.sound |
| Verif.Mathop.hellingerTable_claim_false | propext, Classical.choice, Quot.sound |
| Verif.Mathop.simd_same | propext, Classical.choice, Quot.sound |
| Verif.Mathop.simd_same3 | propext, Classical.choice, Quot.sound |
| Verif.Mathop.weightedMean_exact | propext, Classical.choice, Quot.sound |
| Verif.Mathop.weightedSigma_exact | propext, Classical.choice, Quot.sound |
| Verif.Imop.imconvcol_simd_same | propext, Classical.choice, Quot.sound |
| Verif.Imop.imconvcolAny_correct_partial | propext, Classical.choice, Quot.sound |
| Verif.Mathop.mod2pi_exact | propext, Classical.choice, Quot.sound |
| Verif.Mathop.mod2pi_range | propext, Classical.choice, Quot.sound |
| Verif.Mathop.modEnds_claim_false | propext, Classical.choice, Quot.sound |
| Verif.Mathop.mod2pi_diverges | propext, Classical.choice, Quot.sound |
| Verif.Mathop.floorL_exact | propext, Classical.choice, Quot.sound |
| Verif.Mathop.ceilL_exact | propext, Classical.choice, Quot.sound |
| Verif.Mathop.roundL_exact | propext, Classical.choice, Quot.sound |
| Verif.Mathop.fastAtan2_error | propext, Classical.choice, Quot.sound |
| Verif.Mathop.fastAtan2_null | propext, Classical.choice, Quot.sound |
| Verif.Mathop.atanError_claim_false | propext, Classical.choice, Quot.sound |
| Verif.Mathop.fastResqrt_error | propext, Classical.choice, Quot.sound |
| Verif.Mathop.fastSqrt_error | propext, Classical.choice, Quot.sound |
| Verif.Mathop.fastSqrtD_claim_false | propext, Classical.choice, Quot.sound |
| Verif.Mathop.svd2_exact | propext, Classical.choice, Quot.sound |
| Verif.Mathop.svdExact_claim_false | propext, Classical.choice, Quot.sound |
| Verif.Mathop.svd2_null_column | propext, Classical.choice, Quot.sound |
| Verif.Mathop.svdSorted_claim_false | propext, Classical.choice, Quot.sound |
| Verif.Covdet.extractPatch_exact | propext, Classical.choice, Quot.sound |
| Verif.Covdet.extractPatch_continuity | propext, Classical.choice, Quot.sound |
| Verif.Covdet.extractPatch_refuses | propext, Classical.choice, Quot.sound |
| Verif.Covdet.patchInterior_claim_false | propext, Classical.choice, Quot.sound |
| Verif.Covdet.extractPatch_inside | propext, Classical.choice, Quot.sound |
| Verif.Covdet.bilinear_congr | propext, Classical.choice, Quot.sound |
| Verif.Covdet.patchSafe_claim_false | propext, Classical.choice, Quot.sound |
| Verif.Covdet.chooseLevel_has | propext, Classical.choice, Quot.sound |
| Verif.Covdet.chooseLevel_below | propext, Classical.choice, Quot.sound |
| Verif.Covdet.chooseLevel_best | propext, Classical.choice, Quot.sound |
| Verif.Covdet.chooseLevel_half | propext, Classical.choice, Quot.sound |
| Verif.Covdet.bestLevel_claim_false | propext, Classical.choice, Quot.sound |
| Verif.Covdet.imageLevels_octaves | propext, Classical.choice, Quot.sound |
| Verif.Covdet.imageLevels_levels | propext, Classical.choice, Quot.sound |
| Verif.Covdet.imageLevels_valid | propext, Classical.choice, Quot.sound |
| Verif.Covdet.anyImage_claim_false | propext, Classical.choice, Quot.sound |
| Verif.Covdet.numOctaves_claim_false | propext, Classical.choice, Quot.sound |
| Verif.Covdet.numOctaves_zero | propext, Classical.choice, Quot.sound |
| Verif.Covdet.oriForPatch_correct | propext, Classical.choice, Quot.sound |
| Verif.Covdet.oriHist_spec | propext, Classical.choice, Quot.sound |
| Verif.Covdet.voteShare_sum | propext, Classical.choice, Quot.sound |
| Verif.Covdet.strongestPeak_claim_false | propext, Classical.choice, Quot.sound |
| Verif.Covdet.someOrientation_claim_false | propext, Classical.choice, Quot.sound |
| Verif.Covdet.maxOrientations_claim_false | propext, Classical.choice, Quot.sound |
| Verif.Covdet.maxOrientations_zero | propext, Classical.choice, Quot.sound |
| Verif.Covdet.maxOrientations_overflow | propext, Classical.choice, Quot.sound |
| Verif.Covdet.extractOrientations_correct | propext, Classical.choice, Quot.sound |
| Verif.Covdet.orient_oriented | propext, Quot.sound |
| Verif.Covdet.turned_ellipse | propext, Quot.sound |
| Verif.Covdet.lapForPatch_correct | propext, Classical.choice, Quot.sound |
| Verif.Covdet.lapScores_spec | propext, Classical.choice, Quot.sound |
| Verif.Covdet.lapShift_bound | propext, Classical.choice, Quot.sound |
| Verif.Covdet.lapScore_claim_false | propext, Classical.choice, Quot.sound |
| Verif.Covdet.lapScore_double | propext, Classical.choice, Quot.sound |
| Verif.Covdet.extractLaplacian_correct | propext, Classical.choice, Quot.sound |
| Verif.Covdet.rescale_scaled | propext, Quot.sound |
| Verif.Covdet.lapKeep_claim_false | propext, Classical.choice, Quot.sound |
| Verif.Covdet.affineShape_correct | propext, Classical.choice, Quot.sound |
| Verif.Covdet.secondMoment_spec | propext, Classical.choice, Quot.sound |
| Verif.Covdet.affineShape_scale | propext, Classical.choice, Quot.sound |
| Verif.Covdet.adapted_svd | propext, Classical.choice, Quot.sound |
| Verif.Covdet.hasSvd_unique | propext, Classical.choice, Quot.sound |
| Verif.Covdet.affineFinite_claim_false | propext, Classical.choice, Quot.sound |
| Verif.Covdet.affineReflect_claim_false | propext, Classical.choice, Quot.sound |
| Verif.Covdet.affineUpright_claim_false | propext, Classical.choice, Quot.sound |
| Verif.Covdet.extractAffine_correct | propext, Classical.choice, Quot.sound |
| Verif.Toolbox.binsum_all_correct | propext, Classical.choice, Quot.sound |
| Verif.Toolbox.binsum_dim_correct | propext, Classical.choice, Quot.sound |
| Verif.Toolbox.binsum_dim_refused | propext, Quot.sound |
| Verif.Toolbox.binsumSafe_claim_false | propext |
| Verif.Toolbox.binsumScalar_claim_false | propext, Classical.choice, Quot.sound |
| Verif.Toolbox.binsum_unchecked | propext |
| Verif.Toolbox.binsum_last_dim | propext, Quot.sound |
| Verif.Toolbox.localmax_correct | propext, Classical.choice, Quot.sound |
| Verif.Toolbox.localmax_claim_false | propext, Quot.sound |
| Verif.Toolbox.localmaxEmpty_claim_false | propext, Quot.sound |
| Verif.Imop.documentedOffset_claim_false | propext, Classical.choice, Quot.sound |
| Verif.Imop.distanceTransform_documented | propext, Classical.choice, Quot.sound |
| Verif.Toolbox.imdisttf_correct | propext, Classical.choice, Quot.sound |
| Verif.Toolbox.imdisttf_negative | propext, Quot.sound |
| Verif.Toolbox.imdistDoc_claim_false | propext, Classical.choice, Quot.sound |
| Verif.Toolbox.imdisttf_documented | propext, Classical.choice, Quot.sound |
| Verif.Toolbox.warpPoint_correct | propext, Classical.choice, Quot.sound |
| Verif.Toolbox.warp_correct | propext, Classical.choice, Quot.sound |
| Verif.Toolbox.warpDSafe_claim_false | propext, Classical.choice, Quot.sound |
| Verif.Toolbox.warpD_claim_false | propext, Classical.choice, Quot.sound |
| Verif.Toolbox.warpPointD_correct | propext, Classical.choice, Quot.sound |
| Verif.Toolbox.warpD_points | propext, Quot.sound |
| Verif.Toolbox.aibhist_correct | propext, Classical.choice, Quot.sound |
| Verif.Toolbox.aibhistCheck_claim_false | propext, Quot.sound |
| Verif.Toolbox.aibhist_hist_fails | propext |
| Verif.Toolbox.aibhistHist_claim_false | propext, Quot.sound |
| Verif.Toolbox.aibhistEnds_claim_false | propext, Quot.sound |
| Verif.Ikm.trainElkan_correct | propext, Classical.choice, Quot.sound |
| Verif.Ikm.elkanLloyd_claim_false | propext, Classical.choice, Quot.sound |
| Verif.Ikm.manyCenters_claim_false | propext |
| Verif.Hikm.hikmeans_push | propext, Classical.choice, Quot.sound |
| Verif.Hikm.hikmeanspush_correct | propext, Classical.choice, Quot.sound |
| Verif.Hikm.pushArgs_claim_false | propext, Quot.sound |
| Verif.Hikm.pushDepth_claim_false | propext, Quot.sound |
| Verif.Hikm.maxIters_claim_false | propext, Classical.choice, Quot.sound |
| Verif.Ikm.cmpPair_order | propext, Classical.choice, Quot.sound |
| Verif.Ikm.seedOrder_unique | propext, Classical.choice, Quot.sound |
| Verif.Ikm.seed_deterministic | propext, Classical.choice, Quot.sound |
| Verif.Ikm.initRand_claim_false | propext |
| Verif.Ikm.initRand_partial | propext, Classical.choice, Quot.sound |
| Verif.Quickshift.medoid_partial | propext, Classical.choice, Quot.sound |
| Verif.Quickshift.medoid_claim_false | propext, Classical.choice, Quot.sound |
| Verif.Sift.transposeDescr_correct | propext, Classical.choice, Quot.sound |
| Verif.Sift.transposeDescr_involution | propext, Classical.choice, Quot.sound |
| Verif.Sift.korder_order | propext, Classical.choice, Quot.sound |
| Verif.Sift.userFrames_correct | propext, Classical.choice, Quot.sound |
| Verif.Sift.userFrames_kept | propext, Classical.choice, Quot.sound |
| Verif.Sift.lastColumn_claim_false | propext, Classical.choice, Quot.sound |
| Verif.Sift.framesKept_claim_false | propext, Classical.choice, Quot.sound |
| Verif.Sift.detected_correct | propext, Classical.choice, Quot.sound |
| Verif.Sift.detected_partial | propext, Classical.choice, Quot.sound |
| Verif.Sift.detected_claim_false | propext, Classical.choice, Quot.sound |
| Verif.Toolbox.allDist_correct | propext, Classical.choice, Quot.sound |
| Verif.Toolbox.allDist_refuses | propext, Quot.sound |
| Verif.Toolbox.allDist_total_partial | propext, Classical.choice, Quot.sound |
| Verif.Toolbox.fullSparse_claim_false | propext, Classical.choice, Quot.sound |
| Verif.Toolbox.kernel_metric | propext, Classical.choice, Quot.sound |
| Verif.Toolbox.hell_real | propext, Classical.choice, Quot.sound |
| Verif.Toolbox.unsigned_mod | propext, Classical.choice, Quot.sound |
| Verif.Toolbox.uint8_exact | propext, Classical.choice, Quot.sound |
| Verif.Toolbox.uint8_limit | propext, Classical.choice, Quot.sound |
| Verif.Toolbox.imsmoothMex_correct | propext, Classical.choice, Quot.sound |
| Verif.Toolbox.imsmoothMex_copy | propext, Classical.choice, Quot.sound |
| Verif.Toolbox.kernelFor_mass | propext, Classical.choice, Quot.sound |
| Verif.Toolbox.smoothed_constant | propext, Classical.choice, Quot.sound |
| Verif.Toolbox.imsmooth_sigma_claim_false | propext, Classical.choice, Quot.sound |
| Verif.Toolbox.imsmooth_step_claim_false | propext, Classical.choice, Quot.sound |
| Verif.KdTree.forest_roundtrip | propext, Classical.choice, Quot.sound |
| Verif.KdTree.kdtree_matlab_nearest | propext, Classical.choice, Quot.sound |
| Verif.KdTree.loadTree_total | propext, Classical.choice, Quot.sound |
| Verif.KdTree.split_dimension_zero_accepted | propext, Classical.choice, Quot.sound |
| Verif.KdTree.data_index_not_checked | propext, Classical.choice, Quot.sound |
| Verif.KdTree.empty_tree_reads_outside | propext, Quot.sound |
| Verif.KdTree.shared_child_accepted | propext, Classical.choice, Quot.sound |
| Verif.KdTree.forest_checked_claim_false | propext, Classical.choice, Quot.sound |
| Verif.Kmeans.quantizeAnn_correct | propext, Classical.choice, Quot.sound |
| Verif.Kmeans.annBuild_ok | propext, Classical.choice, Quot.sound |
| Verif.Kmeans.update_claim_false | propext, Classical.choice, Quot.sound |
| Verif.Kmeans.ann_correct | propext, Classical.choice, Quot.sound |
| Verif.Gmm.initRand_correct | propext, Classical.choice, Quot.sound |
| Verif.Gmm.initKmeans_correct | propext, Classical.choice, Quot.sound |
| Verif.Gmm.defaultKmeans_correct | propext, Classical.choice, Quot.sound |
| Verif.Gmm.gmmCluster_correct | propext, Classical.choice, Quot.sound |
| Verif.Gmm.initRand_ok | propext, Classical.choice, Quot.sound |
| Verif.Gmm.initKmeans_ok | propext, Classical.choice, Quot.sound |
| Verif.Gmm.custom_claim_false | propext, Classical.choice, Quot.sound |
| Verif.Hog.render_correct | propext, Classical.choice, Quot.sound |
| Verif.Hog.freshImage_claim_false | propext, Classical.choice, Quot.sound |
| Verif.Hog.drawGlyphs_correct | propext, Classical.choice, Quot.sound |
| Verif.Hog.bar_near | propext, Classical.choice, Quot.sound |
| Verif.Hog.bar_center | propext, Classical.choice, Quot.sound |
| Verif.Sift.scaleSpace_correct_partial | propext, Classical.choice, Quot.sound |
| Verif.Sift.blur_constant | propext, Classical.choice, Quot.sound |
| Verif.Sift.smallImages_claim_false | propext, Classical.choice, Quot.sound |
| Verif.Covdet.newBank_correct | propext, Classical.choice, Quot.sound |
| Verif.Covdet.response_plane | propext, Classical.choice, Quot.sound |
| Verif.Covdet.scales_plane | propext, Classical.choice, Quot.sound |
| Verif.Covdet.newMask_correct | propext, Classical.choice, Quot.sound |
| Verif.Plotop.tpfp_correct | propext, Classical.choice, Quot.sound |
| Verif.Plotop.roc_rates | propext, Classical.choice, Quot.sound |
| Verif.Plotop.roc_auc | propext, Classical.choice, Quot.sound |
| Verif.Plotop.auc_probability | propext, Classical.choice, Quot.sound |
| Verif.Plotop.order_claim_false | propext, Classical.choice, Quot.sound |
| Verif.Plotop.roc_eer | propext, Classical.choice, Quot.sound |
| Verif.Plotop.pr_correct_partial | propext, Classical.choice, Quot.sound |
| Verif.Plotop.pr_area | propext, Classical.choice, Quot.sound |
| Verif.Plotop.pr_prior_partial | propext, Classical.choice, Quot.sound |
| Verif.Plotop.precision_claim_false | propext, Classical.choice, Quot.sound |
| Verif.Plotop.pr_interpolated | propext, Classical.choice, Quot.sound |
| Verif.Plotop.pr_ap11_partial | propext, Classical.choice, Quot.sound |
| Verif.Plotop.eleven_claim_false | propext, Classical.choice, Quot.sound |
| Verif.Plotop.stable_retrieved_partial | propext, Classical.choice, Quot.sound |
| Verif.Plotop.stable_claim_false | propext, Classical.choice, Quot.sound |
| Verif.Pgm.readNew_never | propext, Classical.choice, Quot.sound |
| Verif.Pgm.readNewF_never | propext, Classical.choice, Quot.sound |
| Verif.Pgm.readCloses_claim_false | propext, Classical.choice, Quot.sound |
| Verif.Pgm.write_correct_partial | propext, Classical.choice, Quot.sound |
| Verif.Pgm.written_refused | propext, Classical.choice, Quot.sound |
| Verif.Pgm.fileRoundtrip_claim_false | propext, Classical.choice, Quot.sound |
| Verif.Pgm.stored_claim_false | propext, Classical.choice, Quot.sound |
| Verif.Pgm.writeF_correct | propext, Classical.choice, Quot.sound |
| Verif.Life.kmeans_history | propext, Classical.choice, Quot.sound |
| Verif.Life.cluster_keeps_best | propext, Classical.choice, Quot.sound |
| Verif.Life.copy_partial | propext, Classical.choice, Quot.sound |
| Verif.Life.copy_claim_false | propext, Classical.choice, Quot.sound |
| Verif.Life.gmm_history | propext, Classical.choice, Quot.sound |
| Verif.Life.gmm_no_leak_claim_false | propext, Classical.choice, Quot.sound |
| Verif.Life.gmm_cluster_keeps_best | propext, Classical.choice, Quot.sound |
| Verif.Life.custom_partial | propext, Classical.choice, Quot.sound |
| Verif.Life.custom_claim_false | propext, Classical.choice, Quot.sound |
| Verif.Life.gmm_copy_partial | propext, Classical.choice, Quot.sound |
| Verif.Life.gmm_copy_claim_false | propext, Classical.choice, Quot.sound |
| Verif.Life.own_init_dangles | propext, Classical.choice, Quot.sound |
| Verif.Life.svm_new_delete | propext, Classical.choice, Quot.sound |
| Verif.Life.svm_new_defined | propext, Classical.choice, Quot.sound |
| Verif.Life.svm_no_leak_claim_false | propext, Quot.sound |
| Verif.Life.scalespace_new_delete | propext, Classical.choice, Quot.sound |
| Verif.Life.scalespace_null_claim_false | propext, Quot.sound |
| Verif.Life.scalespace_copy | propext, Classical.choice, Quot.sound |
| Verif.Life.searchers_history | propext, Classical.choice, Quot.sound |
| Verif.Life.forest_delete | propext, Classical.choice, Quot.sound |
| Verif.Life.forest_no_leak_claim_false | propext, Classical.choice, Quot.sound |
| Verif.Life.searcher_visits_partial | propext, Classical.choice, Quot.sound |
| Verif.Life.searcher_visits_claim_false | propext, Classical.choice, Quot.sound |
| Verif.Life.dsift_history | propext, Classical.choice, Quot.sound |
| Verif.Life.dsift_ready_claim_false | propext, Classical.choice, Quot.sound |
| Verif.Life.mser_history | propext, Classical.choice, Quot.sound |
| Verif.Life.hikm_history | propext, Classical.choice, Quot.sound |
| Verif.Life.hikm_no_leak_partial | propext, Classical.choice, Quot.sound |
| Verif.Life.hikm_no_leak_claim_false | propext, Classical.choice, Quot.sound |
| Verif.KdTree.chooseSplit_top | propext, Classical.choice, Quot.sound |
| Verif.KdTree.forestBuild_top_partial | propext, Classical.choice, Quot.sound |
| Verif.KdTree.AmongTop.one | propext, Classical.choice, Quot.sound |
| Verif.KdTree.split_claim_false | propext, Classical.choice, Quot.sound |
| Verif.Pgm.header_partial | propext, Classical.choice, Quot.sound |
| Verif.Pgm.header_claim_false | propext, Classical.choice, Quot.sound |
| Verif.Pgm.text_pixels | propext, Quot.sound |
| Verif.Pgm.text_short | propext, Classical.choice, Quot.sound |
| Verif.Life.covdet_memory | propext, Classical.choice, Quot.sound |
| Verif.Life.covdet_defined_partial | propext, Classical.choice, Quot.sound |
| Verif.Life.covdet_claim_false | propext, Quot.sound |
| Verif.Host.cpu_flags | propext, Quot.sound |
| Verif.Host.cpu_text | propext, Quot.sound |
| Verif.Host.conf_text_partial | propext, Classical.choice, Quot.sound |
| Verif.Host.conf_generic_undefined | propext, Quot.sound |
| Verif.Host.conf_null_undefined | propext, Quot.sound |
| Verif.Host.conf_claim_false | propext, Quot.sound |
| Verif.Threads.threads_independent | propext, Classical.choice, Quot.sound |
| Verif.Threads.forests_local_partial | propext, Classical.choice, Quot.sound |
| Verif.Threads.forest_dangles | propext, Classical.choice, Quot.sound |
| Verif.Threads.forest_takes_numbers | propext, Classical.choice, Quot.sound |
| Verif.Threads.forest_claim_false | propext, Classical.choice, Quot.sound |
| Verif.Life.sift_history | propext, Classical.choice, Quot.sound |
| Verif.Life.hog_history | propext, Classical.choice, Quot.sound |
| Verif.Life.svmdata_history | propext, Classical.choice, Quot.sound |
| Verif.Life.svmdata_no_leak | propext, Classical.choice, Quot.sound |
| Verif.Life.svmdata_null_undefined | propext, Classical.choice, Quot.sound |
| Verif.Life.sd_fail_claim_false | propext, Classical.choice, Quot.sound |
| Verif.Host.select_runs_partial | propext, Quot.sound |
| Verif.Host.select_off | propext, Quot.sound |
| Verif.Host.select_avx_undefined | propext, Quot.sound |
| Verif.Host.select_claim_false | propext, Quot.sound |
| Verif.Life.temp_history_partial | propext, Classical.choice, Quot.sound |
| Verif.Life.tri_leak | propext, Quot.sound |
| Verif.Life.temp_claim_false | propext, Classical.choice, Quot.sound |
| Verif.Life.liop_history | propext, Classical.choice, Quot.sound |
| Verif.Life.quickshift_history | propext, Classical.choice, Quot.sound |
| Verif.Covdet.turn_correct | propext, Classical.choice, Quot.sound |
