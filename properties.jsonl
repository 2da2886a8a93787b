{"id": "C01", "title": "Heap order is preserved by every operation", "statement": "After any sequence of heap push, pop and update calls on an array, the first heapSize entries satisfy the heap order (no element compares greater than its children under the configured comparison), and no call moves an element out of the array: the array is always a permutation of what was stored.", "quantifier": "every array content, every total-preorder comparison, every finite sequence of push/pop/update calls with legal arguments, every heap size", "why_tests_cant": "depends on arbitrary operation histories and arbitrary heap sizes; a test covers a handful of shapes", "anchors": [{"file": "vl/heap-def.h", "symbols": ["push", "pop", "update", "up", "down"]}]}
{"id": "C02", "title": "The heap is a priority queue", "statement": "pop always returns an element that is minimal among the elements currently in the heap, removes exactly that element, and popping everything yields the elements in non-decreasing order.", "quantifier": "every heap state reachable by pushes, pops and updates; every size", "why_tests_cant": "minimality is over all elements of an unbounded container after arbitrary histories", "anchors": [{"file": "vl/heap-def.h", "symbols": ["pop", "push", "update"]}]}
{"id": "C03", "title": "The generic quicksort sorts", "statement": "Sorting an array of size at least one leaves it a permutation of the input, in non-decreasing order under the configured comparison; the recursion terminates and never touches an index outside the array.", "quantifier": "every non-empty array of any length, every comparison that is a total preorder (duplicates included)", "why_tests_cant": "correctness of partitioning and termination are about all permutations and all duplicate patterns of every length", "anchors": [{"file": "vl/qsort-def.h", "symbols": ["sort", "sort_recursive"]}]}
{"id": "C04", "title": "Shuffle outputs a permutation and can reach all of them", "statement": "Shuffling an array returns a permutation of it for every possible stream of random numbers; for distinct choices of random indexes the results differ, so that each of the n! permutations is produced by exactly one choice sequence (uniform random indexes give a uniform permutation).", "quantifier": "every array and every random stream (all choice sequences)", "why_tests_cant": "a test samples few of the n! outcomes", "anchors": [{"file": "vl/shuffle-def.h", "symbols": ["shuffle"]}, {"file": "vl/random.c", "symbols": ["vl_rand_permute_indexes"]}, {"file": "vl/random.h", "symbols": ["vl_rand_uindex"]}]}
{"id": "C05", "title": "Bounded random indexes are in range", "statement": "vl_rand_uindex(range) returns a value strictly smaller than range for every range >= 1 (both the 32-bit and the 64-bit path), vl_rand_int31 lies in [0,2^31), vl_rand_int63 in [0,2^63), real1 in [0,1], real2 in [0,1), real3 in (0,1), res53 in [0,1).", "quantifier": "every generator state and every range", "why_tests_cant": "the state space has 2^19968 elements and the ranges 2^64", "anchors": [{"file": "vl/random.h", "symbols": ["vl_rand_uindex", "vl_rand_int31", "vl_rand_int63", "vl_rand_real1", "vl_rand_real2", "vl_rand_real3", "vl_rand_res53", "vl_rand_uint64"]}]}
{"id": "C06", "title": "The random stream is the MT19937 sequence", "statement": "The k-th 32-bit number returned after seeding is the tempered k-th term of the MT19937 linear recurrence started from the seeded words, for every k, irrespective of the in-place block regeneration; a never-seeded generator behaves exactly like one seeded with 5489; re-seeding erases all history; the tempering is a bijection of 32-bit words.", "quantifier": "every seed and seed array, every output position k, every earlier history of the generator", "why_tests_cant": "outputs of unbounded index and all 2^32 seeds", "anchors": [{"file": "vl/random.c", "symbols": ["vl_rand_init", "vl_rand_seed", "vl_rand_seed_by_array", "vl_rand_uint32"]}]}
{"id": "C07", "title": "Fast integer square root is the exact floor square root", "statement": "For 8, 16, 32 and 64 bit unsigned arguments the fast integer square root returns the largest integer whose square does not exceed the argument; no intermediate overflows.", "quantifier": "all 2^8, 2^16, 2^32 and 2^64 arguments", "why_tests_cant": "2^64 arguments cannot be enumerated", "anchors": [{"file": "vl/mathop.h", "symbols": ["vl_fast_sqrt_ui8", "vl_fast_sqrt_ui16", "vl_fast_sqrt_ui32", "vl_fast_sqrt_ui64"]}]}
{"id": "C08", "title": "Bounded string functions never overrun, always terminate and report the full length", "statement": "vl_string_copy, vl_string_copy_sub, vl_string_basename and vl_string_replace_wildcard write at most destinationSize bytes, NUL-terminate the destination whenever destinationSize > 0, store the longest prefix of the ideal result that fits, and return the length of the ideal (untruncated) result independently of destinationSize.", "quantifier": "every source string, every destination size including 0, every NULL/non-NULL destination", "why_tests_cant": "memory-safety contract over all lengths and buffer sizes", "anchors": [{"file": "vl/stringop.c", "symbols": ["vl_string_copy", "vl_string_copy_sub", "vl_string_basename", "vl_string_replace_wildcard"]}]}
{"id": "C09", "title": "Wildcard replacement substitutes exactly the unescaped wildcards", "statement": "The ideal result of replace_wildcard is the source in which every unescaped wildcard character is replaced by the replacement string, every escaped character is copied literally without its escape, and everything else is unchanged; a source without wildcard and escape characters is returned unchanged.", "quantifier": "every source, replacement, wildcard and escape character", "why_tests_cant": "unbounded strings and nested escapes", "anchors": [{"file": "vl/stringop.c", "symbols": ["vl_string_replace_wildcard"]}]}
{"id": "C10", "title": "Basename strips directories and extensions", "statement": "The ideal result of basename(path,k) is the part after the last '/' or '\\', with the last min(k, number of dots) dot-suffixes removed.", "quantifier": "every path and every number of extensions k", "why_tests_cant": "unbounded strings", "anchors": [{"file": "vl/stringop.c", "symbols": ["vl_string_basename"]}]}
{"id": "C11", "title": "Case-insensitive comparison is a total preorder identifying exactly strings equal up to letter case", "statement": "vl_string_casei_cmp(a,b) is 0 iff the strings are equal after case folding; it is antisymmetric in sign and transitive; so enumeration lookups by case-insensitive name are well defined.", "quantifier": "all pairs and triples of strings", "why_tests_cant": "universally quantified algebraic laws", "anchors": [{"file": "vl/stringop.c", "symbols": ["vl_string_casei_cmp"]}]}
{"id": "C12", "title": "Enumeration lookups return the first match or NULL", "statement": "vl_enumeration_get / get_casei / get_by_value return the first table entry whose name (or value) matches, and NULL exactly when no entry before the terminator matches.", "quantifier": "every terminated table and every key", "why_tests_cant": "unbounded tables", "anchors": [{"file": "vl/stringop.c", "symbols": ["vl_enumeration_get", "vl_enumeration_get_casei", "vl_enumeration_get_by_value"]}]}
{"id": "C13", "title": "Protocol parsing recognises exactly the two protocols", "statement": "vl_string_parse_protocol reports ASCII (BINARY) only for strings of the form ascii://rest (bin://rest), NONE when there is no '://', UNKNOWN otherwise, and returns the position of rest. (The code compares only a prefix: expected to be refuted for proper prefixes such as 'a://x' and '://x'.)", "quantifier": "every string", "why_tests_cant": "the defect appears only on unusual prefixes, no finite list of names settles it", "anchors": [{"file": "vl/stringop.c", "symbols": ["vl_string_parse_protocol", "vl_string_protocol_name"]}]}
{"id": "C14", "title": "Byte-order conversion is an involution and big-endian on the wire", "statement": "Swapping host/big-endian order of 2, 4 or 8 byte words twice is the identity, the swap writes the network (big-endian) byte order into a separate destination buffer on either kind of host. (Used in place, with equal source and destination, it corrupts the word on a little-endian host: expected to be refuted.)", "quantifier": "all 2^64 words and all byte buffers", "why_tests_cant": "2^64 values", "anchors": [{"file": "vl/host.h", "symbols": ["vl_swap_host_big_endianness_8", "vl_swap_host_big_endianness_4", "vl_swap_host_big_endianness_2"]}]}
{"id": "C15", "title": "A PGM image written can be read back", "statement": "Writing an image and reading its header and pixels back yields the same width, height, maximum value and pixels. (The header reader rejects exactly the images with max_value < 65536: expected to be refuted; the pixel payload round trip holds.)", "quantifier": "every width, height, depth and pixel content", "why_tests_cant": "unbounded images", "anchors": [{"file": "vl/pgm.c", "symbols": ["vl_pgm_extract_head", "vl_pgm_extract_data", "vl_pgm_insert", "remove_blanks", "remove_line"]}]}
{"id": "C16", "title": "LBP codes are the uniform-pattern quantisation", "statement": "The 256-entry LBP table maps uniform patterns (at most two 0/1 transitions around the circle) to one bin per (rotation, number of ones), all-zero and all-one and non-uniform ones to their dedicated bins; all entries are < 58 and the mapping of non-constant uniform patterns is injective.", "quantifier": "all 256 patterns", "why_tests_cant": "full table; also used for arbitrary images in later properties", "anchors": [{"file": "vl/lbp.c", "symbols": ["_vl_lbp_init_uniform", "vl_lbp_new"]}]}
{"id": "C17", "title": "Integral image gives exact box sums", "statement": "vl_imintegral fills the output with sum_{x'<=x,y'<=y} image(x',y') and consequently the four-corner formula yields the sum over any axis-aligned box.", "quantifier": "every image size and content, every box", "why_tests_cant": "unbounded sizes", "anchors": [{"file": "vl/imopv.c", "symbols": ["vl_imintegral_d", "vl_imintegral_f"]}]}
{"id": "C18", "title": "Column convolution computes the documented sum under both paddings", "statement": "vl_imconvcol_v* writes dst(x,y) = sum_p src(x,p) filt(y-p-filt_begin) with the source extended by zero or by continuity, subsampled by step, optionally transposed, touching no memory outside source, filter and destination.", "quantifier": "every image size, filter support [begin,end], step >= 1, padding mode, transpose flag", "why_tests_cant": "combinations of boundary situations (filter longer than image, filter fully outside) are unbounded", "anchors": [{"file": "vl/imopv.c", "symbols": ["vl_imconvcol_vd", "vl_imconvcol_vf"]}]}
{"id": "C19", "title": "Triangular filtering equals convolution with the normalised triangle", "statement": "vl_imconvcoltri computes the convolution of every column with the triangular kernel of the given size through integration and second differences, with the requested padding.", "quantifier": "every column length, filter size, step and padding", "why_tests_cant": "unbounded sizes and border cases", "anchors": [{"file": "vl/imopv.c", "symbols": ["vl_imconvcoltri_d", "vl_imconvcoltri_f"]}]}
{"id": "C20", "title": "The distance transform is the exact lower envelope", "statement": "vl_image_distance_transform writes at each x the minimum over x' of image(x') + coeff (x - x' - offset)^2, and the index of a minimiser, for coeff = 0 and every coeff larger than the machine epsilon (smaller positive coefficients are deliberately treated as flat and do not give the minimum). Applied along rows and then, in place, along columns it gives the minimum over the whole image.", "quantifier": "every signal length, every content, coefficient and offset", "why_tests_cant": "global optimality over all positions of an unbounded signal", "anchors": [{"file": "vl/imopv.c", "symbols": ["vl_image_distance_transform_d", "vl_image_distance_transform_f"]}]}
{"id": "C21", "title": "Gaussian elimination solves the linear system", "statement": "vl_gaussian_elimination on an augmented matrix returns VL_ERR_OK only with the solution x of A x = b in the last column, and reports an error when the pivot is below the threshold; row exchanges never lose an equation; vl_solve_linear_system_2/3 likewise.", "quantifier": "every matrix size and content", "why_tests_cant": "all real matrices", "anchors": [{"file": "vl/mathop.c", "symbols": ["vl_gaussian_elimination", "vl_solve_linear_system_2", "vl_solve_linear_system_3"]}]}
{"id": "C22", "title": "All-pairs evaluation fills exactly the right entry", "statement": "vl_eval_vector_comparison_on_all_pairs writes f(x_i,y_j) at position i + j*numDataX, and with Y absent the full symmetric table f(x_i,x_j); every entry is written once.", "quantifier": "all sizes, all comparison functions (symmetric ones for the self case)", "why_tests_cant": "unbounded sizes", "anchors": [{"file": "vl/mathop.c", "symbols": ["vl_eval_vector_comparison_on_all_pairs_f", "vl_eval_vector_comparison_on_all_pairs_d"]}]}
{"id": "C23", "title": "The kd-tree partitions the data", "statement": "After building, each tree's leaves partition the data points: every data index lies in exactly one leaf range; each internal node's split hyperplane separates its children; the number of nodes never exceeds 2*numData-1, so the node buffer is never overrun.", "quantifier": "every data set (duplicates and constant dimensions included), every randomised choice of split dimension, median and mean thresholding", "why_tests_cant": "all data sets, all random choices", "anchors": [{"file": "vl/kdtree.c", "symbols": ["vl_kdtree_build_recursively", "vl_kdforest_build", "vl_kdtree_node_new"]}]}
{"id": "C24", "title": "Exact kd-tree queries return the true nearest neighbours", "statement": "With an unlimited number of comparisons and the squared Euclidean distance, a query returns the k nearest data points in non-decreasing distance order, regardless of the trees built; missing entries are index -1 and NaN. (For the L1 distance the code's lower bound is wrong: expected to be refuted.)", "quantifier": "every data set, tree, query point and number of neighbours", "why_tests_cant": "global optimality over all data sets and all trees", "anchors": [{"file": "vl/kdtree.c", "symbols": ["vl_kdforestsearcher_query", "vl_kdforest_query_recursively"]}]}
{"id": "C25", "title": "Query results do not depend on query history or on the schedule", "statement": "The answer of a searcher to a query is independent of the queries answered before, and the batch interface returns the same results for every assignment of queries to threads.", "quantifier": "every history of queries and every interleaving/assignment of queries to searchers", "why_tests_cant": "unbounded histories and schedules", "anchors": [{"file": "vl/kdtree.c", "symbols": ["vl_kdforestsearcher_query", "vl_kdforest_query_with_array", "searchIdBook"]}]}
{"id": "C26", "title": "Integer k-means assigns every point to a nearest centre", "statement": "vl_ikm_push (Lloyd) returns for every point the smallest index among centres of minimal squared distance, and the accelerated Elkan assignment returns a centre at the same minimal distance, provided no 32-bit overflow occurs.", "quantifier": "every set of centres and points of any dimension", "why_tests_cant": "correctness of triangle inequality pruning with integer (>>2) rounding for all inputs", "anchors": [{"file": "vl/ikmeans.c", "symbols": ["vl_ikm_push_one", "vl_ikm_push"]}, {"file": "vl/ikmeans_lloyd.tc", "symbols": ["vl_ikm_push_lloyd"]}, {"file": "vl/ikmeans_elkan.tc", "symbols": ["vl_ikm_push_elkan", "vl_ikm_elkan_update_inter_dist"]}]}
{"id": "C27", "title": "Lloyd iterations never increase the k-means energy", "statement": "With the squared Euclidean (or L1) distance each assignment step and each centre update step does not increase the total energy, so the energy sequence is non-increasing and iteration terminates by the stated rules; empty clusters are handled as documented.", "quantifier": "every data set, initialisation, number of centres", "why_tests_cant": "optimisation statement over all data", "anchors": [{"file": "vl/kmeans.c", "symbols": ["_vl_kmeans_refine_centers_lloyd", "_vl_kmeans_quantize"]}]}
{"id": "C28", "title": "Elkan acceleration is exact", "statement": "Elkan's k-means pruned by triangle-inequality bounds assigns every point to a nearest centre in every iteration, i.e. it produces the same energies as Lloyd.", "quantifier": "every data set and every number of iterations, with any metric satisfying the triangle inequality", "why_tests_cant": "bound bookkeeping over unbounded iteration histories", "anchors": [{"file": "vl/kmeans.c", "symbols": ["_vl_kmeans_refine_centers_elkan"]}]}
{"id": "C29", "title": "K-means with repetitions returns the best repetition", "statement": "vl_kmeans_cluster returns the energy and centres of a repetition with minimal energy among all repetitions, and never mixes centres of different repetitions.", "quantifier": "every number of repetitions >= 1 and all energies", "why_tests_cant": "arbitrary sequences of energies", "anchors": [{"file": "vl/kmeans.c", "symbols": ["vl_kmeans_cluster"]}]}
{"id": "C30", "title": "Copying a k-means object gives an equal object", "statement": "vl_kmeans_new_copy returns an object with the same configuration and centres as the original. (Two configuration fields are never copied: expected to be refuted.)", "quantifier": "every k-means object", "why_tests_cant": "the omission only shows for non-default configurations / uninitialised memory", "anchors": [{"file": "vl/kmeans.c", "symbols": ["vl_kmeans_new_copy"]}]}
{"id": "C31", "title": "The hierarchical k-means path is valid", "statement": "vl_hikm_push writes exactly depth entries for each point, each entry a valid child index, following the chosen nearest child at each level.", "quantifier": "every tree and every data set", "why_tests_cant": "unbounded trees and data", "anchors": [{"file": "vl/hikmeans.c", "symbols": ["vl_hikm_push", "xmeans"]}]}
{"id": "C32", "title": "AIB produces a valid binary merge tree", "statement": "vl_aib_process returns a parent array in which every merge creates one new node with exactly two children, each node has at most one parent, parents have larger indexes than children, and following parents from every merged leaf ends at one root.", "quantifier": "every joint histogram (zero rows included)", "why_tests_cant": "all inputs and all tie patterns", "anchors": [{"file": "vl/aib.c", "symbols": ["vl_aib_process", "vl_aib_min_beta", "vl_aib_merge_nodes"]}]}
{"id": "C33", "title": "MSER pixel sort is a stable counting sort", "statement": "The pixel ordering used by MSER is a permutation of all pixels sorted by non-decreasing intensity, stable in pixel index.", "quantifier": "every image of 8-bit intensities of any number of pixels", "why_tests_cant": "unbounded images", "anchors": [{"file": "vl/mser.c", "symbols": ["vl_mser_process"]}]}
{"id": "C34", "title": "MSER region forest matches connected components of level sets", "statement": "After all pixels up to a level have been processed, two processed pixels have the same region root exactly when they are connected through processed neighbouring pixels, and each root stores the number of pixels of its component; path compression never changes roots.", "quantifier": "every image, every processing prefix", "why_tests_cant": "inductive invariant over the processing history", "anchors": [{"file": "vl/mser.c", "symbols": ["climb", "vl_mser_process"]}]}
{"id": "C35", "title": "Quick shift produces a forest of strictly increasing density", "statement": "Every parent returned by quickshift is either the pixel itself or a pixel of strictly higher density within the maximum distance tau, so following parents always ends in a root.", "quantifier": "every image, kernel and tau", "why_tests_cant": "well-foundedness over all images", "anchors": [{"file": "vl/quickshift.c", "symbols": ["vl_quickshift_process"]}]}
{"id": "C36", "title": "SLIC post-processing leaves no small isolated region", "statement": "After the clean-up pass every pixel has a label and every connected component of equal labels is either at least minRegionSize pixels large or contains the first pixel.", "quantifier": "every initial segmentation, image size and minRegionSize", "why_tests_cant": "graph property of unbounded images", "anchors": [{"file": "vl/slic.c", "symbols": ["vl_slic_segment"]}]}
{"id": "C37", "title": "Region growing returns exactly the connected extremal region", "statement": "vl_erfill returns the pixels connected to the seed through pixels of intensity not above the seed's intensity. (The seed is never marked visited: exact duplicate-free output is expected to be refuted.)", "quantifier": "every image and seed", "why_tests_cant": "unbounded flood fill", "anchors": [{"file": "toolbox/mser/vl_erfill.c", "symbols": ["mexFunction"]}]}
{"id": "C38", "title": "Binary search returns the correct bin", "statement": "vl_binsearch(B,x) returns the number of edges not exceeding x for a sorted edge vector; the search terminates and reads only inside B.", "quantifier": "every sorted vector of any length and every query", "why_tests_cant": "unbounded arrays", "anchors": [{"file": "toolbox/misc/vl_binsearch.c", "symbols": ["mexFunction"]}, {"file": "toolbox/imop/vl_imwbackwardmx.c", "symbols": ["findNeighbor"]}]}
{"id": "C39", "title": "Running maximum along a dimension", "statement": "vl_cummax writes at each position the maximum of all earlier entries along the chosen dimension, for arrays of any dimensionality.", "quantifier": "every array shape and dimension", "why_tests_cant": "unbounded shapes", "anchors": [{"file": "toolbox/misc/vl_cummax.def", "symbols": ["ITERATE_1"]}]}
{"id": "C40", "title": "The hash accumulator is a counting dictionary", "statement": "vl_ihashsum counts each distinct key exactly as often as it was presented, across any sequence of calls and table growth, and vl_ihashfind returns the slot of a key iff it was inserted.", "quantifier": "every sequence of keys, every table size", "why_tests_cant": "collision chains depend on arbitrary histories", "anchors": [{"file": "toolbox/misc/vl_ihashsum.c", "symbols": ["mexFunction"]}, {"file": "toolbox/misc/vl_ihashfind.c", "symbols": ["mexFunction"]}]}
{"id": "C41", "title": "Integral histograms give exact box histograms", "statement": "vl_inthist followed by vl_samplinthist returns, for each box, the exact count of each label inside the box; empty boxes give zero and out-of-range boxes are rejected.", "quantifier": "every label image, every list of boxes", "why_tests_cant": "unbounded images", "anchors": [{"file": "toolbox/misc/inthist.tc", "symbols": ["INTEGRAL"]}, {"file": "toolbox/misc/samplinthist.tc", "symbols": ["labelStride"]}]}
{"id": "C42", "title": "Descriptor matching equals brute force", "statement": "vl_ubcmatch reports for each descriptor the nearest neighbour whenever thresh*best < second best, and the early-abandon in the distance accumulation never changes the result.", "quantifier": "all descriptor sets and thresholds", "why_tests_cant": "pruned search equivalence over all inputs", "anchors": [{"file": "toolbox/sift/vl_ubcmatch.c", "symbols": ["compare"]}]}
{"id": "C43", "title": "HOG flip permutation is an involution", "statement": "The permutation returned by vl_hog_get_permutation is a bijection of the feature components and its own inverse, for both variants and any number of orientations.", "quantifier": "every number of orientations >= 1 and both variants", "why_tests_cant": "parametrised by an unbounded number of orientations", "anchors": [{"file": "vl/hog.c", "symbols": ["vl_hog_new", "vl_hog_get_permutation", "vl_hog_get_dimension"]}]}
{"id": "C44", "title": "HOG accumulation stays in bounds and conserves gradient mass", "statement": "Adding an image writes only inside the histogram buffer, and each pixel's bilinear weights are non-negative and sum to the mass that falls inside the grid; feature extraction is repeatable. (Polar field with bilinear orientation and repeated extraction are expected to be refuted.)", "quantifier": "every image size, cell size and gradient field", "why_tests_cant": "border cases for all sizes", "anchors": [{"file": "vl/hog.c", "symbols": ["vl_hog_put_image", "vl_hog_put_polar_field", "vl_hog_extract", "vl_hog_prepare_buffers"]}]}
{"id": "C45", "title": "Dense SIFT announces exactly the keypoints it writes", "statement": "The number of keypoints announced by dsift equals the number of frames written for every geometry, bounds and step, and every bin centre sampled lies inside the image bounds.", "quantifier": "every image size, bounds, step, bin size and number of bins", "why_tests_cant": "count formula vs. loop trip count for all integer geometries", "anchors": [{"file": "vl/dsift.c", "symbols": ["_vl_dsift_update_buffers", "_vl_dsift_with_flat_window", "_vl_dsift_with_gaussian_window"]}, {"file": "vl/dsift.h", "symbols": ["vl_dsift_set_steps", "vl_dsift_set_bounds"]}]}
{"id": "C46", "title": "Descriptor transposition is an involution", "statement": "Transposing a dense SIFT descriptor permutes its entries, and transposing it back gives the original; likewise it agrees with swapping x,y and reflecting the orientation.", "quantifier": "every numbers of bins X, Y and T (T multiple of 4)", "why_tests_cant": "parametrised index arithmetic", "anchors": [{"file": "vl/dsift.h", "symbols": ["vl_dsift_transpose_descriptor"]}]}
{"id": "C47", "title": "Scale-space geometry equality is an equivalence", "statement": "vl_scalespacegeometry_is_equal is reflexive and true exactly for equal geometries. (The code compares different fields: expected to be refuted.)", "quantifier": "every pair of geometries", "why_tests_cant": "needs all field combinations", "anchors": [{"file": "vl/scalespace.c", "symbols": ["vl_scalespacegeometry_is_equal"]}]}
{"id": "C48", "title": "Octave buffers and levels never overlap", "statement": "Distinct (octave, level) pairs of a scale space occupy disjoint memory of the announced size, and down/upsampling writes inside the destination level. (Downsampling of an image whose height is not a multiple of the step writes one extra row: expected to be refuted.)", "quantifier": "every geometry and image size", "why_tests_cant": "all sizes", "anchors": [{"file": "vl/scalespace.c", "symbols": ["vl_scalespace_get_level", "vl_scalespace_new_with_geometry", "copy_and_downsample", "copy_and_upsample", "vl_scalespace_get_octave_geometry"]}]}
{"id": "C49", "title": "LIOP permutation index is a perfect ranking", "statement": "The index computed for a permutation of n elements is below n!, distinct permutations have distinct indexes, and every index is attained; hence each descriptor bin is addressed by exactly one ordering.", "quantifier": "every n and all n! permutations", "why_tests_cant": "n! grows without bound", "anchors": [{"file": "vl/liop.c", "symbols": ["get_permutation_index", "factorial", "vl_liopdesc_get_dimension"]}]}
{"id": "C50", "title": "Homogeneous kernel map lookup is safe, odd and continuous inside a subdivision", "statement": "vl_homogeneouskernelmap_evaluate never reads outside the precomputed table for any finite input, is odd in the input, returns zero outside the covered exponent range, and interpolates linearly between table entries.", "quantifier": "every finite input and every order", "why_tests_cant": "all floating point inputs", "anchors": [{"file": "vl/homkermap.c", "symbols": ["vl_homogeneouskernelmap_evaluate_d", "vl_homogeneouskernelmap_new"]}]}
{"id": "C51", "title": "Rodrigues' formula yields rotations", "statement": "vl_rodrigues returns an orthogonal matrix with determinant one that fixes the rotation axis, and the derivative output is the derivative of that map; vl_irodrigues inverts it for angles in (0,pi).", "quantifier": "every vector in R^3", "why_tests_cant": "real-valued identity for all vectors", "anchors": [{"file": "vl/rodrigues.c", "symbols": ["vl_rodrigues", "vl_irodrigues"]}]}
{"id": "C52", "title": "SVM dual coordinate updates are optimal and the duality gap certifies the solution", "statement": "Each SDCA coordinate update maximises the dual objective along the coordinate, the dual objective never decreases, the model vector always equals the weighted sum of the data, the duality gap is non-negative, and when training stops as converged the primal objective is within epsilon of the optimum.", "quantifier": "every data set, order of visits, loss (hinge, squared hinge, L1, L2), regularisation and number of iterations", "why_tests_cant": "optimality over all models and all visit sequences", "anchors": [{"file": "vl/svm.c", "symbols": ["_vl_svm_sdca_train", "_vl_svm_update_statistics", "vl_svm_hinge_dca_update", "vl_svm_hinge2_dca_update", "vl_svm_l1_dca_update", "vl_svm_l2_dca_update", "vl_svm_hinge_conjugate_loss"]}]}
{"id": "C53", "title": "SVM stochastic gradient with lazy scaling equals plain stochastic gradient", "statement": "The SGD solver's factored representation yields, after every iteration, exactly the model of the textbook update w <- (1-lambda*eta) w - eta*grad.", "quantifier": "every data sequence, learning rate schedule and number of iterations", "why_tests_cant": "unbounded iteration histories", "anchors": [{"file": "vl/svm.c", "symbols": ["_vl_svm_sgd_train"]}]}
{"id": "C54", "title": "GMM posteriors are probability distributions and the priors stay normalised", "statement": "The posteriors of each point are non-negative and sum to one, do not depend on the max-shift used for stability, and after each maximisation step the priors sum to one and covariances respect their lower bounds.", "quantifier": "every mixture and data point", "why_tests_cant": "real-valued statement for all parameters", "anchors": [{"file": "vl/gmm.c", "symbols": ["vl_get_gmm_data_posteriors", "_vl_gmm_maximization", "_vl_gmm_apply_bounds"]}]}
{"id": "C55", "title": "VLAD encoding is the documented residual sum", "statement": "vl_vlad_encode returns per cluster the assignment-weighted sum of residuals, is invariant to the order of the data, and with the default normalisation has unit L2 norm unless it is (nearly) zero.", "quantifier": "all data, assignments, orders and flags", "why_tests_cant": "permutation invariance and norms over all inputs", "anchors": [{"file": "vl/vlad.c", "symbols": ["vl_vlad_encode"]}]}
{"id": "C56", "title": "Fisher encoding is order independent and normalised", "statement": "vl_fisher_encode is the documented weighted deviation statistics, independent of the order of data points, and with the normalised/improved flag has unit norm unless (nearly) zero.", "quantifier": "all data, mixtures, flags", "why_tests_cant": "permutation invariance over all inputs", "anchors": [{"file": "vl/fisher.c", "symbols": ["_vl_fisher_encode"]}]}
{"id": "C57", "title": "SIFT octave iteration visits every octave exactly once", "statement": "After process_first_octave, repeated process_next_octave calls return success exactly O-1 times, visiting octaves o_min..o_min+O-1 in order, and then report EOF for ever. (With zero octaves the sequence does not stop: expected to be refuted.)", "quantifier": "every octave configuration and every number of calls", "why_tests_cant": "call histories", "anchors": [{"file": "vl/sift.c", "symbols": ["vl_sift_process_first_octave", "vl_sift_process_next_octave", "vl_sift_new"]}]}
{"id": "C58", "title": "SIFT descriptors depend only on the current image", "statement": "Descriptors and orientations computed after processing an image depend only on that image, not on images processed earlier with the same filter. (The gradient cache is not invalidated when a new image is started: expected to be refuted.)", "quantifier": "every history of processed images", "why_tests_cant": "history property", "anchors": [{"file": "vl/sift.c", "symbols": ["update_gradient", "vl_sift_process_first_octave"]}]}
{"id": "C59", "title": "SIFT keypoint refinement stays inside the DoG volume", "statement": "Starting from a detected interior extremum, the iterative refinement never moves outside the interior of the DoG octave and every access of the 3x3x3 neighbourhood is in bounds; it makes at most five moves.", "quantifier": "every DoG content and every candidate", "why_tests_cant": "arbitrary data drives the walk", "anchors": [{"file": "vl/sift.c", "symbols": ["vl_sift_detect"]}]}
{"id": "C60", "title": "Orientation histogram smoothing is a circular box filter preserving mass", "statement": "The in-place smoothing of the orientation histogram equals repeated circular averaging of three adjacent bins and keeps the total mass; at most four orientations are returned.", "quantifier": "every histogram", "why_tests_cant": "all real-valued histograms", "anchors": [{"file": "vl/sift.c", "symbols": ["vl_sift_calc_keypoint_orientations"]}]}
{"id": "C61", "title": "The library lock is a recursive mutual exclusion lock", "statement": "At any time at most one thread is between vl_lock_state and the matching vl_unlock_state; a thread may lock repeatedly and the lock is released only after as many unlocks.", "quantifier": "every number of threads and every interleaving", "why_tests_cant": "interleavings are unbounded", "anchors": [{"file": "vl/generic.c", "symbols": ["vl_lock_state", "vl_unlock_state"]}]}
{"id": "C62", "title": "Last error is per thread and truncated safely", "statement": "vl_set_last_error in one thread never changes the last error and message seen by another thread.", "quantifier": "every interleaving of error reports and reads", "why_tests_cant": "interleavings are unbounded", "anchors": [{"file": "vl/generic.c", "symbols": ["vl_set_last_error", "vl_get_last_error", "vl_get_thread_specific_state"]}]}
{"id": "C63", "title": "Option parsing consumes every argument once", "statement": "getopt_long visits each option and operand exactly once, permutes the operands behind the options preserving their order, and '--' ends the options without losing arguments. (The '--' handling overwrites an argument: expected to be refuted.)", "quantifier": "every argument vector and option table", "why_tests_cant": "unbounded argument vectors", "anchors": [{"file": "vl/getopt_long.c", "symbols": ["getopt_long"]}]}
{"id": "C64", "title": "Array element count", "statement": "vl_array_get_num_elements is the product of the dimensions, and 0 for an array without dimensions.", "quantifier": "every array shape", "why_tests_cant": "unbounded numbers of dimensions", "anchors": [{"file": "vl/array.c", "symbols": ["vl_array_get_num_elements"]}]}
{"id": "C65", "title": "Type sizes and names are consistent", "statement": "vl_get_type_size and vl_get_type_name return for each type constant the right size and its own distinct name. (Unsigned types are given the names of signed ones: expected to be refuted.)", "quantifier": "every type constant", "why_tests_cant": "complete table", "anchors": [{"file": "vl/generic.h", "symbols": ["vl_get_type_size", "vl_get_type_name"]}]}
{"id": "C66", "title": "LBP histograms are the bilinear pooling of the quantised patterns", "statement": "vl_lbp_process never accesses memory outside the image and the features buffer; each entry before normalisation is the sum over interior pixels with that quantised pattern of the bilinear cell weights; processing the transposed image with a transposed extractor yields the transposed features; the normalised histogram of each cell is non-negative with Euclidean norm at most 1.", "quantifier": "every image, image size and cell size", "why_tests_cant": "unbounded images and sizes; boundary cells arise only for particular size/cell-size combinations", "anchors": [{"file": "vl/lbp.c", "symbols": ["vl_lbp_process"]}]}
{"id": "C67", "title": "Gaussian smoothing is the separable convolution with a normalised filter", "statement": "vl_imsmooth builds symmetric filters whose samples sum to one, writes at every pixel the separable convolution of the image extended by continuity (the y filter along columns, the x filter along rows), touches nothing outside the destination image and leaves constant images constant.", "quantifier": "every image, size, stride and pair of filter widths", "why_tests_cant": "unbounded sizes; boundary handling of two chained transposed convolutions", "anchors": [{"file": "vl/imopv.c", "symbols": ["vl_imsmooth_d", "vl_imsmooth_f"]}]}
{"id": "C68", "title": "k-means random seeding picks distinct data points", "statement": "After initialising a k-means object from random data points, with at least as many points as centres, all accesses are within the blocks, every centre is a copy of a data point, no data point is used twice, and the centres are pairwise different vectors whenever the data contains at least that many different vectors.", "quantifier": "every data set, dimension, number of centres not above the number of points, generator state, and both distances", "why_tests_cant": "The skipping of duplicates depends on the order of the random permutation and on how many points remain; a test sees a few permutations only.", "anchors": [{"file": "vl/kmeans.c", "symbols": ["vl_kmeans_init_centers_with_rand_data", "_vl_kmeans_init_centers_with_rand_data"]}, {"file": "vl/shuffle-def.h", "symbols": ["VL_SHUFFLE_shuffle"]}]}
{"id": "C69", "title": "k-means++ seeding samples in proportion to the distance from the centres", "statement": "k-means++ seeding takes the point drawn by the generator first, and then each centre is the data point found by inverting the cumulated distances to the nearest centre so far at the fraction drawn by the generator; so unless the fraction is zero a centre differs from the earlier ones as long as some data point does.", "quantifier": "every data set, dimension, number of centres, generator, and both distances", "why_tests_cant": "Sampling weights cannot be observed from a few runs, and the duplicate at fraction zero has negligible probability in tests.", "anchors": [{"file": "vl/kmeans.c", "symbols": ["vl_kmeans_init_centers_plus_plus", "_vl_kmeans_init_centers_plus_plus"]}]}
{"id": "C70", "title": "Integer k-means seeding picks data points", "statement": "With at least one datum, random seeding of integer k-means accesses memory within bounds; every centre is a datum, and the centres are pairwise different vectors whenever the data contains at least that many different vectors.", "quantifier": "every byte data set, dimension, number of centres and order of the data", "why_tests_cant": "The skipping of duplicates depends on the permutation and on how many points remain.", "anchors": [{"file": "vl/ikmeans_init.tc", "symbols": ["vl_ikm_init_rand_data"]}]}
{"id": "C71", "title": "Integer k-means training gives nearest assignments and means", "statement": "Lloyd training of integer k-means stays within its blocks, does not overflow and stops within the given number of iterations; the centres are bytes, the last assignment of each datum is to a nearest centre, on convergence each non-empty centre is the mean of its data rounded down, and the result does not depend on the contents of fresh memory.", "quantifier": "every byte data set up to the size that could overflow, every dimension, number of centres not above the number of data, and initial centres", "why_tests_cant": "Unbounded data; dependence on uninitialised memory cannot be excluded by runs.", "anchors": [{"file": "vl/ikmeans_lloyd.tc", "symbols": ["vl_ikm_train_lloyd"]}]}
{"id": "C72", "title": "SIFT refinement solves its linear system or reports it near singular", "statement": "For every symmetric or general system the elimination with pivoting ends without an invalid access; the vector it leaves solves the system exactly (up to rounding), or it is zero and the matrix sends a vector with an entry one to less than the threshold in every entry.", "quantifier": "every matrix and right hand side, any number of equations", "why_tests_cant": "all real matrices; pivoting order depends on data", "anchors": [{"file": "vl/sift.c", "symbols": ["vl_sift_detect"]}]}
{"id": "C73", "title": "SIFT detections are the strict extrema of the differences of Gaussians", "statement": "The candidates of the SIFT detector are exactly the inner points whose value exceeds 0.8 times the threshold and all 26 neighbours (or symmetrically for minima), in raster order; each is reported after refinement if and only if it passes the contrast, edge, offset and boundary tests, and the order is kept by the in-place compaction.", "quantifier": "every octave content, size and thresholds", "why_tests_cant": "arbitrary images; the pointer walk and compaction must be right for all sizes", "anchors": [{"file": "vl/sift.c", "symbols": ["vl_sift_detect"]}]}
{"id": "C74", "title": "SIFT upsampling doubles the image by linear interpolation", "statement": "For a negative first octave the first level of the scale space is the input image doubled along both axes as many times as asked, by linear interpolation. (The second doubling exchanges width and height: refuted for images that are not square.)", "quantifier": "every image, size and number of doublings", "why_tests_cant": "all sizes and contents; the error shows only for two doublings of a non-square image", "anchors": [{"file": "vl/sift.c", "symbols": ["copy_and_upsample_rows", "vl_sift_process_first_octave"]}]}
{"id": "C75", "title": "SIFT downsampling takes every 2^d-th pixel of every 2^d-th row", "statement": "Downsampling copies exactly the pixels whose coordinates are multiples of 2^d, row by row, and writes nothing else. (The documentation promises floor(height/2^d) rows; one more is written when the height is not a multiple: refuted.)", "quantifier": "every image, size and number of octaves", "why_tests_cant": "all sizes", "anchors": [{"file": "vl/sift.c", "symbols": ["copy_and_downsample"]}]}
{"id": "C76", "title": "SIFT gradients are the central differences of the levels", "statement": "For octaves of at least 2x2 pixels the gradient buffer holds, for each pixel of the inner levels, modulus and angle of the vector of central differences (one-sided at the borders), with no access out of bounds and nothing else written. (For one pixel wide octaves the code leaves the buffers: refuted.)", "quantifier": "every octave size and content", "why_tests_cant": "all sizes and contents, boundary cases", "anchors": [{"file": "vl/sift.c", "symbols": ["update_gradient"]}]}
{"id": "C77", "title": "SIFT descriptors are trilinear histograms of the gradient around the keypoint", "statement": "The descriptor of a keypoint of the current octave is the histogram over 4x4 spatial and 8 orientation bins of the gradients in the window around the keypoint, in the frame rotated and scaled by the keypoint, each weighted by magnitude, Gaussian window and trilinear interpolation (circular in the angle), normalised, cut at 0.2 and normalised again, or zero below the norm threshold; all accesses are in bounds, the old contents of the buffer do not matter, and a keypoint of another octave leaves the buffer alone. (A keypoint in the last row of the octave silently gets no descriptor.)", "quantifier": "every octave size, gradient, keypoint position, scale, angle and filter parameters", "why_tests_cant": "arbitrary real positions and angles; windows clipped at the borders; seam of the angle", "anchors": [{"file": "vl/sift.c", "symbols": ["vl_sift_calc_keypoint_descriptor", "vl_sift_calc_raw_descriptor", "normalize_histogram"]}, {"file": "vl/mathop.h", "symbols": ["vl_mod_2pi_f", "vl_floor_f"]}]}
{"id": "C78", "title": "SIFT descriptors have nonnegative entries and norm at most one", "statement": "Whatever the gradients (with nonnegative magnitudes), every entry of a descriptor is between zero and one and the Euclidean norm is at most one.", "quantifier": "every gradient, keypoint and threshold", "why_tests_cant": "all real inputs", "anchors": [{"file": "vl/sift.c", "symbols": ["vl_sift_calc_keypoint_descriptor", "vl_sift_calc_raw_descriptor", "normalize_histogram"]}]}
{"id": "C79", "title": "A keypoint made from a scale is at the nearest level of the scale space", "statement": "vl_sift_keypoint_init gives an octave of the filter and a level for which gradients exist; octave and level together are the level of the whole scale space nearest to the scale, the first or the last when the scale is outside; and the fractional level represents the scale exactly.", "quantifier": "every scale, position and filter geometry", "why_tests_cant": "the octave boundaries and the clamping depend on the real value of the scale", "anchors": [{"file": "vl/sift.c", "symbols": ["vl_sift_keypoint_init"]}]}
{"id": "C80", "title": "LIOP descriptors are weighted histograms of the local orderings", "statement": "For every patch, the descriptor entry of a spatial bin and an ordering is the sum, over the pixels of the disc that fall in the bin when sorted by intensity, of the number of neighbour pairs that differ by more than the threshold, if the interpolated intensities of the neighbours are in this ordering; divided by the norm. All samples are inside the patch or interpolated with zero, nothing is read out of bounds, and the old contents of the scratch arrays do not matter. (A patch of side one or two is accepted by the constructor but has no pixels: processing is undefined, refuted.)", "quantifier": "every patch, side, radius, number of neighbours and of bins", "why_tests_cant": "sampling points at arbitrary real positions near the border; all sizes", "anchors": [{"file": "vl/liop.c", "symbols": ["vl_liopdesc_new", "vl_liopdesc_process"]}]}
{"id": "C81", "title": "The quick shift density is a function of the image and the kernel", "statement": "After vl_quickshift_process the densities are the Parzen estimate of the current image for the current sigma, whatever the object processed before.", "quantifier": "every image, every sigma, every history of the object", "why_tests_cant": "depends on the history of calls on one object", "anchors": [{"file": "vl/quickshift.c", "symbols": ["vl_quickshift_process", "vl_quickshift_new"]}]}
{"id": "C82", "title": "SLIC assigns every pixel to the nearest region around it and its energy never increases", "statement": "For every image, region size and regularisation, the initial centre of each region is the pixel of weakest gradient around the middle of its grid cell, every assignment gives each pixel the nearest of the (at most four) regions around it, every update sets each centre to the mean of its pixels, and the energy never increases from one iteration to the next; every label is the number of a region and nothing is accessed out of bounds.", "quantifier": "every image, size, number of channels, region size and regularisation", "why_tests_cant": "grid boundary cases for every size; monotonicity over all iterations", "anchors": [{"file": "vl/slic.c", "symbols": ["vl_slic_segment"]}]}
{"id": "C83", "title": "The extremal regions found are exactly those of the image, arranged in their inclusion tree", "statement": "After processing an image of any dimension, the array of extremal regions lists every connected component of every set {intensity at most v} exactly once, with its area; the parent of a region is the smallest listed region that strictly contains it and the only region without a parent is the whole image; the variation is (area of the component at level +delta - area) / area; the number announced is the number found; nothing is accessed out of bounds.", "quantifier": "every image of 8 bit values, every number of dimensions and size, every delta, every contents of the buffers", "why_tests_cant": "all images; union-find with path compression, shortcuts recycled for several purposes", "anchors": [{"file": "vl/mser.c", "symbols": ["vl_mser_process", "climb"]}]}
{"id": "C84", "title": "The maximally stable regions are selected by the documented tests", "statement": "A region is kept if and only if it loses no comparison of variation with its parent or children at the next level, its variation and area are within the bounds, and it differs enough from the closest region kept above it; the result lists a pixel of each kept region in the order of the array and the statistics count the regions removed by each test.", "quantifier": "every image, every parameters", "why_tests_cant": "the duplicate test depends on which larger regions were kept before, along chains of any length", "anchors": [{"file": "vl/mser.c", "symbols": ["vl_mser_process"]}]}
{"id": "C85", "title": "The maximally stable regions do not depend on the history of the filter", "statement": "Two runs on the same image with the same parameters, whatever the filter processed before or its fresh memory holds, return the same result. (The pixel that stands for a region may differ, because the height of pixel 0 is read before it is written: refuted for the list of pixels, proved for the regions.)", "quantifier": "every image, parameters and contents of the buffers", "why_tests_cant": "depends on uninitialised memory and on the history of the filter", "anchors": [{"file": "vl/mser.c", "symbols": ["vl_mser_process"]}]}
{"id": "C86", "title": "The ellipsoids are the mean and the covariance of the pixels of the regions", "statement": "For every region returned, fitting gives the mean of the coordinates of its pixels and their covariances, in any number of dimensions, with the layout (means, then (0,0), (0,1), (1,1), (0,2), ...), and nothing is accessed out of bounds.", "quantifier": "every image, number of dimensions, size and parameters", "why_tests_cant": "the moments are integrated along the joins of the forest for all regions at once", "anchors": [{"file": "vl/mser.c", "symbols": ["vl_mser_ell_fit", "adv"]}]}
{"id": "C87", "title": "HOG features are the cell histograms normalised by the four surrounding blocks", "statement": "For every histogram array, the first extraction after adding data writes for each cell exactly the documented features (Dalal-Triggs or UoCTTI): orientation histograms divided by the norm of each of the four 2x2 blocks around the cell (cells outside replaced by the nearest ones), cut at 0.2, and summed or collected as the variant says; features of nonnegative histograms are nonnegative and bounded; nothing else is written and nothing is read out of bounds.", "quantifier": "every histogram array, number of orientations, size, variant and layout", "why_tests_cant": "all sizes with clipping at each border; plane arithmetic", "anchors": [{"file": "vl/hog.c", "symbols": ["vl_hog_extract"]}]}
{"id": "C88", "title": "HOG features of a mirrored image are the permuted features of the image", "statement": "If the histograms of one object are the mirror image of those of another, then so are the features, up to the permutation the object publishes: feature d of a cell is feature permutation[d] of the mirrored cell.", "quantifier": "every histogram array, number of orientations, size, variant and layout", "why_tests_cant": "relates two runs, for every dimension and cell", "anchors": [{"file": "vl/hog.c", "symbols": ["vl_hog_extract", "vl_hog_get_permutation", "vl_hog_new"]}]}
{"id": "C89", "title": "GMM fitting is safe, terminates and returns a consistent mixture", "statement": "vl_gmm_em (and hence the fitting functions that call it) performs at most maxNumIterations maximisation steps, never reads or writes outside its arrays and never divides by zero or takes the logarithm of zero when the variance lower bounds are positive, there is at least one point and at most a million components; the variances of the returned mixture are not below the bounds, its weights are non-negative and sum to one, and the returned log-likelihood and stored posteriors are those of the data under the returned mixture (not of an earlier iterate).", "quantifier": "every data set, initial mixture with a component of weight at least 1e-6, iteration limit, thread schedule, including restarts of empty modes", "why_tests_cant": "depends on all iterates of a numerical loop and on thread schedules", "anchors": [{"file": "vl/gmm.c", "symbols": ["_vl_gmm_em", "_vl_gmm_restart_empty_modes", "_vl_gmm_maximization", "vl_get_gmm_data_posteriors"]}]}
{"id": "C90", "title": "AIB merges always keep the most information, and report it exactly", "statement": "In vl_aib_process each merge joins two clusters of positive probability such that no other pair of such clusters would have left more mutual information between cluster and label; the reported cost after t merges is exactly the mutual information of the clustering described by the first t merges of the returned tree; the costs never increase; the costs of merges that did not take place are NaN.", "quantifier": "every joint histogram with non-negative entries, not all zero, of any size, with any ties, and any content of uninitialised memory", "why_tests_cant": "the costs are cached across merges and updated only for some entries: correct only by an invariant over all histories of merges", "anchors": [{"file": "vl/aib.c", "symbols": ["vl_aib_process", "vl_aib_update_beta", "vl_aib_merge_nodes", "vl_aib_min_beta", "vl_aib_calculate_information"]}]}
{"id": "C91", "title": "Homogeneous kernel map tables hold the closed-form feature map", "statement": "vl_homogeneouskernelmap_new never writes outside its table, never takes the root of a negative number, samples the (smoothed) spectrum of the selected kernel at increasing frequencies skipping only null samples, and stores the closed-form features, whose inner product is the sampled spectral representation of the kernel.", "quantifier": "every kernel, window, order, gamma > 0 and non-null period", "why_tests_cant": "all orders and real parameters", "anchors": [{"file": "vl/homkermap.c", "symbols": ["vl_homogeneouskernelmap_new", "vl_homogeneouskernelmap_get_smooth_spectrum", "vl_homogeneouskernelmap_get_spectrum"]}]}
{"id": "C92", "title": "A null period selects the default period", "statement": "According to the documentation, vl_homogeneouskernelmap_new with a negative or null period uses the default period.", "quantifier": "every kernel, window, order and gamma", "why_tests_cant": "documentation against code for all parameters", "anchors": [{"file": "vl/homkermap.c", "symbols": ["vl_homogeneouskernelmap_new"]}]}
{"id": "C93", "title": "Every rotation matrix has a vector, and vl_irodrigues returns it", "statement": "For every rotation matrix vl_irodrigues returns (without leaving its arrays) a vector whose rotation is the matrix; within 1e-6 of the identity up to an absolute error of 2e-18, and within 1e-6 of a half turn the rotation is the matrix or its inverse.", "quantifier": "every 3x3 orthogonal matrix of determinant one", "why_tests_cant": "real-valued identity for all rotations, with singular cases", "anchors": [{"file": "vl/rodrigues.c", "symbols": ["vl_irodrigues"]}]}
{"id": "C94", "title": "The derivative output of vl_irodrigues is the derivative of the inverse formula", "statement": "Where the sine of the angle is at least 1e-6, the 3x9 matrix returned by vl_irodrigues is the derivative of the vector with respect to the nine entries of the matrix, the vector being extended to all matrices by the formula angle / (2 sin angle) times the skew-symmetric part.", "quantifier": "every 3x3 matrix with trace strictly between -1 and 3", "why_tests_cant": "real-valued identity for all matrices", "anchors": [{"file": "vl/rodrigues.c", "symbols": ["vl_irodrigues"]}]}
{"id": "C95", "title": "SVM training always terminates with every sample visited once in each epoch", "statement": "With a positive limit on the iterations, training by either solver ends after at most that many iterations without error; each block of as many iterations as samples visits each sample exactly once; the status tells whether the stopping criterion was met or the limit was reached, the dual criterion bounding the distance from the optimum and the gradient criterion requiring that every sample was visited; the reported objective, scores, iteration and epoch are those of the returned model, which may be trained again.", "quantifier": "every data set with non-null samples or non-null bias multiplier, any labels, weights, parameters and state of the random number generator", "why_tests_cant": "termination and statistics must hold for all histories of random permutations", "anchors": [{"file": "vl/svm.c", "symbols": ["_vl_svm_sdca_train", "_vl_svm_sgd_train", "_vl_svm_update_statistics", "_vl_svm_evaluate"]}]}
{"id": "C96", "title": "SVM data sets with a kernel map act as the mapped data", "statement": "The inner product and accumulate functions of a data set with a homogeneous kernel map compute the inner product with, and add a multiple of, the vector whose blocks are the maps of the components of the sample, for whatever content of the internal buffer.", "quantifier": "every data set, map and model", "why_tests_cant": "all dimensions and values", "anchors": [{"file": "vl/svmdataset.c", "symbols": ["_vl_svmdataset_inner_product_hom_d", "vl_svmdataset_accumulate_hom_", "_vl_svmdataset_inner_product_d", "vl_svmdataset_accumulate_"]}]}
{"id": "C97", "title": "SVM gradient training accepts any positive bias learning rate", "statement": "vl_svm_set_bias_learning_rate asks only for a positive rate: training then leaves a finite model.", "quantifier": "every positive rate", "why_tests_cant": "all rates and iterations", "anchors": [{"file": "vl/svm.c", "symbols": ["vl_svm_set_bias_learning_rate", "_vl_svm_sgd_train"]}]}
{"id": "C98", "title": "SVM dual training accepts any samples and bias multiplier", "statement": "vl_svm_set_bias_multiplier accepts zero, and no sample is excluded: training then leaves a finite model.", "quantifier": "every data set and non-negative bias multiplier", "why_tests_cant": "all data", "anchors": [{"file": "vl/svm.c", "symbols": ["vl_svm_set_bias_multiplier", "vl_svm_hinge_dca_update", "_vl_svm_sdca_train"]}]}
{"id": "C99", "title": "The logistic loss is convex with the right derivative, and its dual update is feasible", "statement": "The logistic loss of the SVM is log(1+exp(-yz)) and its derivative is a subgradient; the iterative update of the dual variable never takes the logarithm of a non-positive number and leaves a feasible dual variable.", "quantifier": "every score, label, norm and dual variable", "why_tests_cant": "real-valued for all inputs", "anchors": [{"file": "vl/svm.c", "symbols": ["vl_svm_logistic_loss", "vl_svm_logistic_loss_derivative", "vl_svm_logistic_dca_update"]}]}
{"id": "C100", "title": "The covariant detector keeps exactly the features that were added", "statement": "After any sequence of additions of features and of new detections, whatever additions ran out of memory, vl_covdet_get_num_features and vl_covdet_get_features give exactly the features whose addition was reported as successful since the last detection started, in order, and an error is reported only when memory ran out.", "quantifier": "every sequence of calls, allocation outcome and content of new memory", "why_tests_cant": "all histories of calls and of allocation failures", "anchors": [{"file": "vl/covdet.c", "symbols": ["vl_covdet_append_feature", "_vl_resize_buffer", "_vl_enlarge_buffer", "vl_covdet_get_num_features", "vl_covdet_get_features"]}]}
{"id": "C101", "title": "A covariant detector can be used after a reset", "statement": "After vl_covdet_reset the detector has no features and features can be added to it.", "quantifier": "every history before the reset", "why_tests_cant": "all histories", "anchors": [{"file": "vl/covdet.c", "symbols": ["vl_covdet_reset", "vl_covdet_append_feature"]}]}
{"id": "C102", "title": "Non-extrema suppression keeps exactly the undominated features", "statement": "With a non-zero tolerance the detector keeps, in order, exactly the features of non-null peak score that no effective close feature of larger absolute score dominates; no surviving feature dominates another; a feature that no other dominates survives; and the number of suppressed features is reported.", "quantifier": "every list of features and tolerance", "why_tests_cant": "all configurations of features", "anchors": [{"file": "vl/covdet.c", "symbols": ["vl_covdet_detect", "vl_covdet_set_non_extrema_suppression_threshold", "vl_covdet_get_num_non_extrema_suppressed"]}]}
{"id": "C103", "title": "A feature is suppressed only in favour of one that is kept", "statement": "If non-extrema suppression removes a feature then the result contains a close feature with a larger score.", "quantifier": "every list of features and tolerance", "why_tests_cant": "all configurations of features", "anchors": [{"file": "vl/covdet.c", "symbols": ["vl_covdet_detect"]}]}
{"id": "C104", "title": "Dropping features outside keeps exactly the features inside the image", "statement": "vl_covdet_drop_features_outside keeps, in order, exactly the features such that the square of half side margin mapped by the frame lies in the image.", "quantifier": "every image size, margin and list of features", "why_tests_cant": "all frames and margins", "anchors": [{"file": "vl/covdet.c", "symbols": ["vl_covdet_drop_features_outside", "_vl_covdet_check_frame_inside"]}]}
{"id": "C105", "title": "The covariant detector returns the refined extrema of the response", "statement": "Given the response at all levels of all octaves, detection gives, octave by octave and in scan order, one feature for each strict extremum (in space and scale, or in the plane) of absolute value at least 0.8 times the peak threshold whose refinement by at most four moves of one pixel ends at a stationary point of the local quadratic model that is stable, has a peak beyond the threshold and an edge score below the threshold, and no other feature; no access is out of bounds.", "quantifier": "every response, size, number of octaves and levels, threshold and state of the buffers", "why_tests_cant": "all real responses", "anchors": [{"file": "vl/covdet.c", "symbols": ["vl_covdet_detect", "vl_find_local_extrema_3", "vl_find_local_extrema_2", "vl_refine_local_extreum_3", "vl_refine_local_extreum_2"]}]}
{"id": "C106", "title": "The multiscale detectors search all levels", "statement": "The detectors that look for extrema in the plane (Harris-Laplace, Hessian-Laplace and the multiscale ones) search every level of the response.", "quantifier": "every response and number of levels", "why_tests_cant": "all responses", "anchors": [{"file": "vl/covdet.c", "symbols": ["vl_covdet_detect"]}]}
{"id": "C107", "title": "The image gradient is the central difference with one sided differences at the border", "statement": "For every image of at least two by two pixels and all strides with which rows do not overlap, vl_imgradient stores the horizontal and vertical differences of each pixel (central inside, one sided at the border) and vl_imgradient_polar the modulus and angle of these, at the addresses given by the strides; nothing else is changed and no access is out of bounds.", "quantifier": "every image, size and strides", "why_tests_cant": "all sizes, strides and pixel values", "anchors": [{"file": "vl/imopv.c", "symbols": ["VL_XCAT(vl_imgradient_, SFX)", "VL_XCAT(vl_imgradient_polar_, SFX)"]}]}
{"id": "C108", "title": "The image gradient takes any non-empty image", "statement": "vl_imgradient handles an image of one row or one column.", "quantifier": "every non-empty image", "why_tests_cant": "all sizes", "anchors": [{"file": "vl/imopv.c", "symbols": ["VL_XCAT(vl_imgradient_, SFX)"]}]}
{"id": "C109", "title": "The responses of the covariant detector are the defined cornerness measures", "statement": "For every method, detection computes at each pixel of each level of each octave, border included, the difference of consecutive Gaussian levels, the determinant of the second differences (repeated at the border from the nearest inner pixel) or the Harris score of the smoothed products of image differences, times the scale normalisation; the features are the refined extrema of this map; no access is out of bounds.", "quantifier": "every method, Gaussian scale space with octaves of at least three by three pixels, filter, threshold and content of new memory", "why_tests_cant": "all real images, sizes and levels", "anchors": [{"file": "vl/covdet.c", "symbols": ["_vl_det_hessian_response", "_vl_harris_response", "_vl_dog_response", "vl_covdet_detect"]}]}
{"id": "C110", "title": "The difference of Gaussians is the larger scale minus the smaller", "statement": "As documented, the response of the DoG method at a level is the next Gaussian level minus the level.", "quantifier": "every scale space", "why_tests_cant": "all images", "anchors": [{"file": "vl/covdet.c", "symbols": ["_vl_dog_response", "vl_covdet_detect"]}]}
{"id": "C111", "title": "Dense SIFT descriptors are the interpolated and windowed gradient histograms", "statement": "For every image of at least two by two pixels, each descriptor of the grid is, whatever the filter did before, the vector of sums over its spatial bins of the gradient modulus assigned linearly to the two nearest orientations, weighted by bilinear interpolation around the bin centre and by the Gaussian window centred at the keypoint (or, with the flat window, by the mean of the window over the bin), the image of the oriented gradient being continued by its border; then normalised, clamped at 0.2 and normalised again; the norm of the keypoint is the mass before normalisation; no access is out of bounds.", "quantifier": "every image, size, geometry with at least two orientations, bounds, steps, window and content of the buffers", "why_tests_cant": "all real images and geometries; separable convolutions with transposed temporaries", "anchors": [{"file": "vl/dsift.c", "symbols": ["vl_dsift_process", "_vl_dsift_with_gaussian_window", "_vl_dsift_with_flat_window", "_vl_dsift_new_kernel", "_vl_dsift_get_bin_window_mean"]}]}
{"id": "C112", "title": "Dense SIFT gives the whole gradient to the orientations", "statement": "The orientations of a pixel share its gradient modulus, for every number of orientations.", "quantifier": "every image, size and number of orientations", "why_tests_cant": "all images", "anchors": [{"file": "vl/dsift.c", "symbols": ["vl_dsift_process"]}]}
{"id": "C113", "title": "Transposing a dense SIFT descriptor gives the descriptor of the transposed image", "statement": "As documented, transpose(dsift(I,x,y)) = dsift(transpose(I),y,x), for every number of orientations.", "quantifier": "every image, size, geometry, bounds, steps and window", "why_tests_cant": "relates two runs on all images", "anchors": [{"file": "vl/dsift.h", "symbols": ["vl_dsift_transpose_descriptor"]}, {"file": "vl/dsift.c", "symbols": ["vl_dsift_process"]}]}
{"id": "C114", "title": "The vector comparisons are the documented sums", "statement": "For non-negative vectors, the function returned for each comparison type gives the sum over the components of the documented expression (l1, l2, chi2, Hellinger, Jensen-Shannon distances and kernels), with the value that the limits give where a component is null, and the Mahalanobis function gives the sum of the squared differences times the inverse variances; l1, l2 and the linear kernel also for signed vectors; no division by zero, logarithm of zero or access out of bounds occurs.", "quantifier": "every comparison type, dimension and vectors", "why_tests_cant": "all real vectors of all dimensions, with null components", "anchors": [{"file": "vl/mathop.c", "symbols": ["VL_XCAT(_vl_distance_l2_, SFX)", "VL_XCAT(_vl_distance_chi2_, SFX)", "VL_XCAT(_vl_distance_js_, SFX)", "VL_XCAT(_vl_kernel_chi2_, SFX)", "VL_XCAT(_vl_kernel_js_, SFX)", "VL_XCAT(vl_get_vector_comparison_function_, SFX)"]}]}
{"id": "C115", "title": "Each distance is the one of its kernel, the kernels are positive definite and the roots of the distances are metrics", "statement": "For each pair of distance and kernel d(x,y) = k(x,x) + k(y,y) - k(x,y) - k(y,x); the matrix of the values of the kernel for any vectors is positive semidefinite; the square root of the distance is null only for equal vectors, symmetric, and satisfies the triangle inequality.", "quantifier": "every pair, dimension, and any number of non-negative vectors", "why_tests_cant": "inequalities for all vectors", "anchors": [{"file": "vl/mathop.c", "symbols": ["VL_XCAT(_vl_distance_hellinger_, SFX)", "VL_XCAT(_vl_kernel_hellinger_, SFX)", "VL_XCAT(_vl_kernel_l1_, SFX)", "VL_XCAT(_vl_kernel_js_, SFX)"]}]}
{"id": "C116", "title": "The table of kernels in the documentation is exact", "statement": "The table in mathop.h gives for every kernel the expression that the function computes.", "quantifier": "every kernel and vectors", "why_tests_cant": "all vectors", "anchors": [{"file": "vl/mathop.c", "symbols": ["VL_XCAT(_vl_kernel_hellinger_, SFX)"]}]}
{"id": "C117", "title": "Switching vector instructions on or off does not change the comparisons", "statement": "For every processor, setting of vl_set_simd_enabled, type of numbers, and alignment of the vectors, the selected function gives the same result as the plain one: no component is skipped or counted twice, no load of a register is out of bounds or misaligned.", "quantifier": "every comparison type, dimension, processor features and addresses", "why_tests_cant": "all dimensions and addresses", "anchors": [{"file": "vl/mathop_sse2.c", "symbols": ["VL_XCAT(_vl_distance_l2_sse2_, SFX)", "VL_XCAT(_vl_distance_chi2_sse2_, SFX)", "VL_XCAT(_vl_kernel_chi2_sse2_, SFX)"]}, {"file": "vl/mathop_avx.c", "symbols": ["VL_XCAT(_vl_distance_l2_avx_, SFX)"]}, {"file": "vl/mathop.c", "symbols": ["VL_XCAT(vl_get_vector_comparison_function_, SFX)"]}]}
{"id": "C118", "title": "The vectorised updates of means and variances are exact", "statement": "The vectorised weighted mean and variance updates used by the mixture fitting add to each component exactly the weight times the component (or the squared difference), touch nothing after the last component, and make no access out of bounds or misaligned.", "quantifier": "every dimension, weight, vectors and addresses", "why_tests_cant": "all dimensions and addresses", "anchors": [{"file": "vl/mathop_sse2.c", "symbols": ["VL_XCAT(_vl_weighted_mean_sse2_, SFX)", "VL_XCAT(_vl_weighted_sigma_sse2_, SFX)"]}, {"file": "vl/mathop_avx.c", "symbols": ["VL_XCAT(_vl_weighted_mean_avx_, SFX)", "VL_XCAT(_vl_weighted_sigma_avx_, SFX)"]}]}
{"id": "C119", "title": "Switching vector instructions on or off does not change image convolutions", "statement": "For every processor, type of numbers, address and stride of the image, vl_imconvcol gives the same image as the plain code whenever the latter makes no access out of bounds; loads of registers are aligned, and the columns that do not fill a register are treated.", "quantifier": "every image, size, strides, address, filter, step, padding and layout", "why_tests_cant": "all sizes and addresses", "anchors": [{"file": "vl/imopv_sse2.c", "symbols": ["VL_XCAT3(_vl_imconvcol_v, SFX, _sse2)"]}, {"file": "vl/imopv.c", "symbols": ["VL_XCAT(vl_imconvcol_v, SFX)"]}]}
{"id": "C120", "title": "vl_mod_2pi reduces an angle to the interval from zero to a full turn", "statement": "For every angle the result is in [0, 2 pi] and differs from the angle by a whole number of turns; in particular with rounding the result, if there is one, is between zero and 2 pi.", "quantifier": "every angle (and every monotone rounding that keeps 2 pi)", "why_tests_cant": "all numbers; number of iterations not bounded", "anchors": [{"file": "vl/mathop.h", "symbols": ["vl_mod_2pi_f", "vl_mod_2pi_d"]}]}
{"id": "C121", "title": "vl_mod_2pi returns for every finite argument", "statement": "The call ends for every finite floating point angle.", "quantifier": "every finite single precision number", "why_tests_cant": "termination for all inputs", "anchors": [{"file": "vl/mathop.h", "symbols": ["vl_mod_2pi_f"]}]}
{"id": "C122", "title": "vl_floor, vl_ceil and vl_round are exact", "statement": "For every argument whose result fits the type of the result, floor and ceil give the nearest integer below and above, and round the nearest integer, halves away from zero.", "quantifier": "every number in the range of the result type", "why_tests_cant": "all numbers, negative integers and halves included", "anchors": [{"file": "vl/mathop.h", "symbols": ["vl_floor_f", "vl_floor_d", "vl_ceil_f", "vl_ceil_d", "vl_round_f", "vl_round_d"]}]}
{"id": "C123", "title": "vl_fast_atan2 is close to the angle of the vector", "statement": "For every vector that is not null the result differs from the angle by at most 0.00615 plus the ratio of the machine epsilon to the length of the vector; there is no division by zero, also for the null vector.", "quantifier": "every vector", "why_tests_cant": "error bound on all directions, all lengths", "anchors": [{"file": "vl/mathop.h", "symbols": ["vl_fast_atan2_f", "vl_fast_atan2_d"]}]}
{"id": "C124", "title": "vl_fast_atan2 has the documented error for every vector", "statement": "The error is at most the documented maximum for all vectors, however short.", "quantifier": "every vector that is not null", "why_tests_cant": "all lengths", "anchors": [{"file": "vl/mathop.h", "symbols": ["vl_fast_atan2_f"]}]}
{"id": "C125", "title": "vl_fast_resqrt and vl_fast_sqrt have a relative error of at most five millionths", "statement": "For every positive normal number of each of the two formats the reciprocal square root has relative error at most 5e-6 (in exact arithmetic of the iteration); the square root too, and numbers below 1e-8 give zero.", "quantifier": "every representation of a positive normal number in 32 and 64 bits", "why_tests_cant": "4 billion and 2^63 bit patterns", "anchors": [{"file": "vl/mathop.h", "symbols": ["vl_fast_resqrt_f", "vl_fast_resqrt_d", "vl_fast_sqrt_f"]}]}
{"id": "C126", "title": "vl_fast_sqrt_d is accurate for every double", "statement": "The function for doubles has the stated relative error for all positive normal doubles.", "quantifier": "every positive normal double", "why_tests_cant": "2^63 bit patterns", "anchors": [{"file": "vl/mathop.h", "symbols": ["vl_fast_sqrt_d"]}]}
{"id": "C127", "title": "vl_svd2 returns a singular value decomposition", "statement": "For every two by two matrix whose first column is not null and whose columns do not have an enormous product, U and V are rotations, S is diagonal with the first entry the largest in absolute value, and U S V' is exactly the matrix.", "quantifier": "every two by two matrix", "why_tests_cant": "all real matrices, all branches", "anchors": [{"file": "vl/mathop.c", "symbols": ["vl_svd2", "vl_lapack_dlasv2"]}]}
{"id": "C128", "title": "vl_svd2 decomposes every matrix", "statement": "The product of the factors is the matrix whenever the first column is not null.", "quantifier": "every two by two matrix", "why_tests_cant": "all real matrices", "anchors": [{"file": "vl/mathop.c", "symbols": ["vl_svd2", "vl_lapack_dlasv2"]}]}
{"id": "C129", "title": "vl_svd2 returns the singular values in decreasing order", "statement": "As documented, the diagonal holds the singular values in decreasing order.", "quantifier": "every two by two matrix", "why_tests_cant": "all real matrices", "anchors": [{"file": "vl/mathop.c", "symbols": ["vl_svd2"]}]}
{"id": "C130", "title": "A patch is the bilinear interpolation of the level along the frame", "statement": "Whenever the patch meets the level from which it is taken and reaches at most the last but one column, extracting it causes no access out of bounds and each element is the bilinear interpolation, at the point the affine map gives, of the level extended by continuity; when it reaches further it is that of the level without the last column; a patch that is not inside and for which padding is not allowed is refused without touching the output.", "quantifier": "every level, size, frame, extent, resolution and previous contents of the buffers", "why_tests_cant": "all frames and sizes, with four padding cases on each side", "anchors": [{"file": "vl/covdet.c", "symbols": ["vl_covdet_extract_patch_helper"]}]}
{"id": "C131", "title": "A patch inside the image is the image", "statement": "A patch that lies inside the level holds the bilinear interpolation of the level itself, also at the last column.", "quantifier": "every patch inside the level", "why_tests_cant": "all frames", "anchors": [{"file": "vl/covdet.c", "symbols": ["vl_covdet_extract_patch_helper"]}]}
{"id": "C132", "title": "A patch can be extracted for every frame", "statement": "Extracting the patch of any frame causes no access out of bounds.", "quantifier": "every frame, also away from the image", "why_tests_cant": "memory safety for all frames", "anchors": [{"file": "vl/covdet.c", "symbols": ["vl_covdet_extract_patch_helper"]}]}
{"id": "C133", "title": "The level of a patch is one of the scale space and not too smooth", "statement": "The level from which a patch is taken is always one of the scale space; if any level has a smoothing, seen in the patch, not above the one asked for, so has the chosen one; with one level per octave it is the one of largest such smoothing, and in general, below the last octave, the chosen one has more than half the smoothing asked for.", "quantifier": "every scale space geometry, smoothing and singular values", "why_tests_cant": "all real scales", "anchors": [{"file": "vl/covdet.c", "symbols": ["vl_covdet_extract_patch_helper"]}]}
{"id": "C134", "title": "The level of a patch is the best one", "statement": "No level with a larger smoothing is still below the smoothing asked for.", "quantifier": "every scale space geometry and smoothing", "why_tests_cant": "all real scales", "anchors": [{"file": "vl/covdet.c", "symbols": ["vl_covdet_extract_patch_helper"]}]}
{"id": "C135", "title": "The octaves of an image are those that are large enough", "statement": "Without a limit on the octaves, putting an image computes exactly the octaves from the first one whose level is at least as large as the documented minimum, each octave has exactly the levels that the response of the method needs, and the levels obtained are a valid geometry.", "quantifier": "every method, first octave, resolution and image size", "why_tests_cant": "all sizes", "anchors": [{"file": "vl/covdet.c", "symbols": ["vl_covdet_put_image"]}]}
{"id": "C136", "title": "Every image can be put in the detector", "statement": "Putting an image succeeds for every non-empty image.", "quantifier": "every image size and configuration", "why_tests_cant": "all sizes", "anchors": [{"file": "vl/covdet.c", "symbols": ["vl_covdet_put_image"]}]}
{"id": "C137", "title": "The number of octaves asked for is respected", "statement": "At most as many octaves as asked for are computed.", "quantifier": "every configuration and image size", "why_tests_cant": "all configurations", "anchors": [{"file": "vl/covdet.c", "symbols": ["vl_covdet_put_image", "vl_covdet_set_num_octaves"]}]}
{"id": "C138", "title": "The orientations of a patch are the peaks of the smoothed gradient histogram", "statement": "The orientations are, in order of decreasing score, the first peaks, up to the number asked for, of the histogram in which each pixel shares its weighted gradient modulus linearly among the two nearest of 36 orientations (the shares sum to one), averaged circularly six times; a peak is a strict local maximum above 0.8 of the global one, refined by the vertex of the parabola.", "quantifier": "every patch, mask, number of orientations from one and correct sorting function", "why_tests_cant": "all patches and real angles", "anchors": [{"file": "vl/covdet.c", "symbols": ["vl_covdet_extract_orientations_for_frame"]}]}
{"id": "C139", "title": "The strongest orientation is always reported", "statement": "If the number of orientations is limited then the strongest ones are reported.", "quantifier": "every patch and limit", "why_tests_cant": "all patches", "anchors": [{"file": "vl/covdet.c", "symbols": ["vl_covdet_extract_orientations_for_frame"]}]}
{"id": "C140", "title": "Every patch with a gradient has an orientation", "statement": "A patch whose histogram is not null has at least one orientation.", "quantifier": "every patch", "why_tests_cant": "all patches", "anchors": [{"file": "vl/covdet.c", "symbols": ["vl_covdet_extract_orientations_for_frame"]}]}
{"id": "C141", "title": "The limit on the number of orientations is respected for every value", "statement": "For every limit given to vl_covdet_set_max_num_orientations no more orientations are reported and the call is safe.", "quantifier": "every limit and patch", "why_tests_cant": "all limits", "anchors": [{"file": "vl/covdet.c", "symbols": ["vl_covdet_set_max_num_orientations", "vl_covdet_extract_orientations_for_frame"]}]}
{"id": "C142", "title": "Orienting the features turns each frame and appends the others", "statement": "After extracting orientations each feature that has some is turned by the first one in place, one copy turned by each further orientation follows at the end of the list in order, a feature without orientation is unchanged; the ellipse, the centre and the other scores of the features are unchanged.", "quantifier": "every list of features and orientations", "why_tests_cant": "all lists", "anchors": [{"file": "vl/covdet.c", "symbols": ["vl_covdet_extract_orientations"]}]}
{"id": "C143", "title": "The Laplacian scales of a patch are the extrema of the normalised Laplacian", "statement": "The scales are, in order and at most four, the strict extrema over the inner eight of the ten levels of the product of patch and filter times the square of the scale, of absolute value at least the threshold, moved by the vertex of the parabola, which is by less than half a level.", "quantifier": "every patch and filter bank", "why_tests_cant": "all patches", "anchors": [{"file": "vl/covdet.c", "symbols": ["vl_covdet_extract_laplacian_scales_for_frame"]}]}
{"id": "C144", "title": "The Laplacian score is the value at the vertex of the parabola", "statement": "The reported score is the value of the interpolating parabola at the refined scale.", "quantifier": "every patch", "why_tests_cant": "all patches", "anchors": [{"file": "vl/covdet.c", "symbols": ["vl_covdet_extract_laplacian_scales_for_frame"]}]}
{"id": "C145", "title": "Selecting Laplacian scales multiplies each feature by its scales", "statement": "After extracting the Laplacian scales each feature that has some is scaled by the first one in place, one copy scaled by each further one follows at the end of the list, the features without any are removed, the order is otherwise kept, and the numbers of features with each number of scales are reported.", "quantifier": "every list of features and scales, peak scores not null", "why_tests_cant": "all lists", "anchors": [{"file": "vl/covdet.c", "symbols": ["vl_covdet_extract_laplacian_scales"]}]}
{"id": "C146", "title": "A feature with a Laplacian scale is kept", "statement": "No feature for which a scale was found is removed.", "quantifier": "every list of features", "why_tests_cant": "all lists", "anchors": [{"file": "vl/covdet.c", "symbols": ["vl_covdet_extract_laplacian_scales"]}]}
{"id": "C147", "title": "Affine adaptation follows the documented iteration and ends", "statement": "For every frame that preserves the orientation of the plane, is not nearly singular nor tiny, and patches whose second moments are flat or not nearly singular: the call ends after at most 15 iterations without dividing by zero; each iteration multiplies the frame by a matrix that whitens the second moments and restores the smallest singular value; it stops at convergence, at the limit, when the anisotropy would exceed five, or with the initial frame when the patch is flat; errors of the patch extraction are returned; the centre is unchanged and the up axis is not rotated.", "quantifier": "every frame, mask, gradients as a function of the frame, and orientation of the axes", "why_tests_cant": "all real matrices and all sequences of patches", "anchors": [{"file": "vl/covdet.c", "symbols": ["vl_covdet_extract_affine_shape_for_frame"]}, {"file": "vl/mathop.c", "symbols": ["vl_solve_linear_system_2"]}]}
{"id": "C148", "title": "Affine adaptation keeps the smallest singular value and bounds the anisotropy", "statement": "The adapted frame has exactly the smallest singular value of the frame, and an anisotropy of at most five unless the frame has a larger one, which is then kept.", "quantifier": "every frame and gradients", "why_tests_cant": "all real matrices", "anchors": [{"file": "vl/covdet.c", "symbols": ["vl_covdet_extract_affine_shape_for_frame"]}]}
{"id": "C149", "title": "Affine adaptation returns numbers for every patch", "statement": "The adaptation of a regular frame never gives a frame that is not made of finite numbers.", "quantifier": "every gradients", "why_tests_cant": "all patches", "anchors": [{"file": "vl/covdet.c", "symbols": ["vl_covdet_extract_affine_shape_for_frame"]}]}
{"id": "C150", "title": "Affine adaptation keeps the scale of mirrored frames", "statement": "The smallest stretch is kept also for frames that reverse the orientation of the plane.", "quantifier": "every frame", "why_tests_cant": "all real matrices", "anchors": [{"file": "vl/covdet.c", "symbols": ["vl_covdet_extract_affine_shape_for_frame"]}]}
{"id": "C151", "title": "Adapted frames are upright whatever their size", "statement": "The adapted frame is upright for every regular frame.", "quantifier": "every frame", "why_tests_cant": "all real matrices", "anchors": [{"file": "vl/covdet.c", "symbols": ["vl_covdet_extract_affine_shape_for_frame"]}]}
{"id": "C152", "title": "Extracting affine shapes keeps exactly the features that can be adapted", "statement": "The features whose adaptation fails are removed; the others keep order and scores and get the adapted frame.", "quantifier": "every list of features", "why_tests_cant": "all lists", "anchors": [{"file": "vl/covdet.c", "symbols": ["vl_covdet_extract_affine_shape"]}]}
{"id": "C153", "title": "vl_binsum adds each value to its bin", "statement": "Without a dimension, the result is the accumulator in which each element has been increased by the sum of the values whose index names it; null indexes are skipped, and an index outside the accumulator is reported as an error.", "quantifier": "all accumulators, values (an array or a scalar) and indexes", "why_tests_cant": "all arrays", "anchors": [{"file": "toolbox/misc/vl_binsum.def", "symbols": ["_vl_binsum_"]}]}
{"id": "C154", "title": "vl_binsum adds along a dimension", "statement": "With a dimension, each value is added to the element of the accumulator that has the same subscripts except for the one of that dimension, which is the index; each slice of the accumulator is thus the histogram of the slice of the indexes.", "quantifier": "arrays of any number of dimensions that agree except along the chosen one, and all valid or invalid indexes", "why_tests_cant": "all shapes", "anchors": [{"file": "toolbox/misc/vl_binsum.def", "symbols": ["_vl_binsum_"]}]}
{"id": "C155", "title": "vl_binsum accepts or refuses every input", "statement": "For all arrays, dimensions and scalars vl_binsum either computes the documented sums or reports an error.", "quantifier": "all arrays of all dimensions", "why_tests_cant": "all shapes, memory safety", "anchors": [{"file": "toolbox/misc/vl_binsum.def", "symbols": ["_vl_binsum_"]}]}
{"id": "C156", "title": "vl_localmax returns exactly the local maximisers", "statement": "The result is the increasing list of the indexes of the elements that are not on the boundary, not smaller than the threshold, and larger than all the elements whose subscripts differ by at most one along the first P dimensions and agree along the others; a matrix with one row or column is searched as a vector.", "quantifier": "arrays of any number of dimensions and sizes, all values and thresholds, every P from one to the number of dimensions", "why_tests_cant": "all arrays of all shapes, 3^P neighbours", "anchors": [{"file": "toolbox/misc/vl_localmax.c", "symbols": ["mexFunction"]}]}
{"id": "C157", "title": "vl_localmax works for every P it accepts and for empty arrays", "statement": "The same for P = 0, and for arrays with an empty dimension.", "quantifier": "all arrays and every P", "why_tests_cant": "all shapes, memory safety", "anchors": [{"file": "toolbox/misc/vl_localmax.c", "symbols": ["mexFunction"]}]}
{"id": "C158", "title": "The offset of the distance transform has the documented sign", "statement": "vl_image_distance_transform writes at each u the minimum over u' of image(u') + coeff (u' - u - offset)^2.", "quantifier": "every signal, coefficient and offset", "why_tests_cant": "all signals", "anchors": [{"file": "vl/imopv.c", "symbols": ["vl_image_distance_transform_d", "vl_image_distance_transform_f"]}]}
{"id": "C159", "title": "vl_imdisttf returns the minimum over the image and where it is reached", "statement": "At each pixel (x, y) the result is the minimum over all pixels (u, v) of I(u,v) + P1 (x - u - P2)^2 + P3 (y - v - P4)^2, and the second result the index of a pixel that reaches it; negative weights are reported.", "quantifier": "all images and parameters", "why_tests_cant": "global optimality over all pixels", "anchors": [{"file": "toolbox/imop/vl_imdisttf.c", "symbols": ["mexFunction"]}]}
{"id": "C160", "title": "vl_imdisttf uses the documented offsets", "statement": "The result is the minimum of I(u,v) + P1 (u - x - P2)^2 + P3 (v - y - P4)^2.", "quantifier": "all images and parameters", "why_tests_cant": "all images", "anchors": [{"file": "toolbox/imop/vl_imdisttf.c", "symbols": ["mexFunction"]}, {"file": "toolbox/imop/vl_imdisttf.m", "symbols": ["VL_IMDISTTF"]}]}
{"id": "C161", "title": "vl_imwbackward interpolates the image bilinearly", "statement": "For every strictly increasing grid, each element of the result is the bilinear interpolation of the image at the point given by the arguments, the same for all cells of the grid that contain the point, and the NaN for points outside the grid; no access is out of bounds.", "quantifier": "all images, irregular grids and points", "why_tests_cant": "all real points and grids", "anchors": [{"file": "toolbox/imop/vl_imwbackwardmx.c", "symbols": ["findNeighbor", "mexFunction"]}]}
{"id": "C162", "title": "vl_imwbackward returns the derivatives of the interpolated image", "statement": "With three results, the value is the same, and the others are the derivatives of the interpolated image, wherever the value is defined.", "quantifier": "all images, grids and points", "why_tests_cant": "all real points and grids", "anchors": [{"file": "toolbox/imop/vl_imwbackwardmx.c", "symbols": ["mexFunction"]}]}
{"id": "C163", "title": "vl_aibhist counts the data points below each node", "statement": "For a tree of AIB and data that are nodes of it, the result holds for each node the number of data points at or below it.", "quantifier": "all trees and data", "why_tests_cant": "all trees", "anchors": [{"file": "toolbox/aib/vl_aibhist.c", "symbols": ["mexFunction"]}]}
{"id": "C164", "title": "vl_aibhist checks its arguments and offers the histogram mode", "statement": "Data that are not in the tree and parents that do not form a tree are reported, and with the option hist the data are the counts of the leaves.", "quantifier": "all parents and data", "why_tests_cant": "all inputs, termination", "anchors": [{"file": "toolbox/aib/vl_aibhist.c", "symbols": ["mexFunction"]}]}
{"id": "C165", "title": "Accelerated integer k-means training returns clusters and means", "statement": "On bytes, vl_ikm_train with the Elkan method stops after a bounded number of passes without overflow and within its arrays. In each pass the centres become the means of their data and no datum goes to a farther centre. If it stops before the maximum number of passes, each datum is assigned to a nearest centre and each centre is the mean of its data rounded down. The distances of the centres are left ready for vl_ikm_push.", "quantifier": "all byte data, initial centres, numbers of passes and contents of the memory", "why_tests_cant": "all data, any number of passes", "anchors": [{"file": "vl/ikmeans_elkan.tc", "symbols": ["vl_ikm_train_elkan"]}, {"file": "vl/ikmeans.c", "symbols": ["vl_ikm_train"]}]}
{"id": "C166", "title": "Accelerated integer k-means training gives the clusters of Lloyd's algorithm", "statement": "The centres found with the Elkan method are among those that Lloyd's algorithm reaches from the same centres, and both methods take any numbers of data and centres.", "quantifier": "all byte data and initial centres", "why_tests_cant": "all data, all ways to break ties", "anchors": [{"file": "vl/ikmeans_elkan.tc", "symbols": ["vl_ikm_train_elkan"]}, {"file": "vl/ikmeans.c", "symbols": ["vl_ikm_train"]}]}
{"id": "C167", "title": "A hierarchical tree saved in MATLAB classifies as the one that was trained", "statement": "vl_hikmeans succeeds whenever there are no more clusters than data. Each column of the assignments it returns is the path of a datum down the tree, one first nearest centre after another, with entries between one and K. vl_hikmeanspush, with either method, returns the same assignments for the structure that vl_hikmeans returned.", "quantifier": "all byte data, numbers of clusters, depths, orders of the data, contents of the memory and both methods of training and of projection", "why_tests_cant": "all trees, all data", "anchors": [{"file": "toolbox/kmeans/vl_hikmeans.c", "symbols": ["xcreate", "hikm_to_matlab", "mexFunction"]}, {"file": "toolbox/kmeans/vl_hikmeanspush.c", "symbols": ["xcreate", "matlab_to_hikm", "mexFunction"]}, {"file": "vl/hikmeans.c", "symbols": ["vl_hikm_train", "vl_hikm_push"]}]}
{"id": "C168", "title": "vl_hikmeanspush reports an error for a tree or data that do not fit", "statement": "For every structure and every matrix of bytes vl_hikmeanspush reports an error or reads and writes within its arguments and its result.", "quantifier": "all structures and data", "why_tests_cant": "all shapes", "anchors": [{"file": "toolbox/kmeans/vl_hikmeanspush.c", "symbols": ["xcreate", "matlab_to_hikm", "mexFunction"]}]}
{"id": "C169", "title": "The option MaxIters of vl_hikmeans limits the iterations", "statement": "vl_hikmeans with MaxIters n returns the tree that training with at most n iterations for each node gives.", "quantifier": "all data and values of the option", "why_tests_cant": "all data", "anchors": [{"file": "toolbox/kmeans/vl_hikmeans.c", "symbols": ["mexFunction"]}, {"file": "vl/hikmeans.c", "symbols": ["vl_hikm_set_max_niters"]}]}
{"id": "C170", "title": "The seeds of integer k-means depend only on the data and the random numbers", "statement": "vl_ikm_init_rand_data compares by a total order on all pairs that it can draw, so that qsort may be called with it. The seeds are the same for every correct qsort and whatever the memory contained.", "quantifier": "all random numbers, data, implementations of qsort and contents of the memory", "why_tests_cant": "all random numbers, all sorting algorithms", "anchors": [{"file": "vl/ikmeans_init.tc", "symbols": ["cmp_pair", "vl_ikm_init_rand_data"]}]}
{"id": "C171", "title": "A quantizer with random centres can be used", "statement": "vl_ikm_init_rand initialises a quantizer of either method, to which data can then be pushed.", "quantifier": "all random numbers, sizes and data", "why_tests_cant": "all random numbers", "anchors": [{"file": "vl/ikmeans_init.tc", "symbols": ["vl_ikm_init_rand"]}, {"file": "vl/ikmeans_elkan.tc", "symbols": ["vl_ikm_elkan_update_inter_dist"]}]}
{"id": "C172", "title": "Medoid shift links every pixel to the medoid of its window", "statement": "With the medoid option, vl_quickshift_process on a new object links every pixel to the pixel of its window that minimises the weighted sum of the squared distances to the pixels of the window.", "quantifier": "all images, sizes and sigma", "why_tests_cant": "all images", "anchors": [{"file": "vl/quickshift.c", "symbols": ["vl_quickshift_process", "vl_quickshift_inner"]}]}
{"id": "C173", "title": "SIFT descriptors of the transposed image are those of the image, transposed", "statement": "The transposition that vl_sift applies to descriptors stays within its two blocks, reverses the rows of bins and negates the orientations, and applied twice gives the descriptor back.", "quantifier": "all descriptors and contents of the memory", "why_tests_cant": "all real values", "anchors": [{"file": "toolbox/sift/vl_sift.c", "symbols": ["transpose_descriptor"]}]}
{"id": "C174", "title": "vl_sift returns the frames it is given", "statement": "With the option Frames, vl_sift returns each frame once (or once for each orientation with the option Orientations) in the order of the scales, with the descriptor computed in the octave of its scale, for every number of octaves and every frame in the image.", "quantifier": "all lists of frames, images, options and implementations of qsort", "why_tests_cant": "all lists of frames, all sorting algorithms", "anchors": [{"file": "toolbox/sift/vl_sift.c", "symbols": ["mexFunction", "korder", "check_sorted"]}, {"file": "vl/sift.c", "symbols": ["vl_sift_keypoint_init", "vl_sift_process_next_octave"]}]}
{"id": "C175", "title": "vl_sift returns every detected keypoint with every orientation", "statement": "Without the option Frames, the outputs of vl_sift are those of the octaves in order, of the keypoints of an octave in order and of the orientations of a keypoint in order; no output is lost when the buffers grow and each frame has its own descriptor.", "quantifier": "all images, numbers of octaves and of keypoints", "why_tests_cant": "all numbers of keypoints", "anchors": [{"file": "toolbox/sift/vl_sift.c", "symbols": ["mexFunction"]}]}
{"id": "C176", "title": "Every keypoint that the SIFT detector keeps has a descriptor", "statement": "Every keypoint reported by vl_sift_detect passes the checks of vl_sift_calc_keypoint_descriptor, which writes the descriptor.", "quantifier": "all contents of the octave, sizes and thresholds", "why_tests_cant": "all octaves", "anchors": [{"file": "vl/sift.c", "symbols": ["vl_sift_detect", "vl_sift_calc_keypoint_descriptor"]}]}
{"id": "C177", "title": "vl_alldist2 computes the metric or kernel of each pair of columns", "statement": "For full or sparse data and each of the eleven norms, entry (i,j) of the result of vl_alldist2 is the documented metric or kernel of column i of the first and column j of the second matrix; with one matrix the entries above the diagonal, which are copied, are the right ones too; full and sparse matrices with the same entries give the same result.", "quantifier": "all matrices full or sparse, all norms", "why_tests_cant": "all matrices and patterns of zeros", "anchors": [{"file": "toolbox/misc/vl_alldist2.c", "symbols": ["CORE", "CORE_SPARSE", "mexFunction"]}]}
{"id": "C178", "title": "vl_alldist2 refuses matrices that do not fit", "statement": "For any two matrices vl_alldist2 gives a result or reports an error; it never reads outside its arguments.", "quantifier": "all pairs of matrices, full or sparse, of any sizes", "why_tests_cant": "all pairs of matrices", "anchors": [{"file": "toolbox/misc/vl_alldist2.c", "symbols": ["mexFunction", "CORE"]}]}
{"id": "C179", "title": "The metrics of vl_alldist2 are those of its kernels", "statement": "For data that is not negative the L2, L1, CHI2 and HELL metrics are K(x,x) + K(y,y) - 2 K(x,y) for the kernels KL2, KL1, KCHI2 and KHELL; HELL is the sum of the squared differences of square roots.", "quantifier": "all vectors that are not negative", "why_tests_cant": "all vectors of real numbers", "anchors": [{"file": "toolbox/misc/vl_alldist2.c", "symbols": ["F_L2", "F_L1", "F_CHI2", "F_HELL", "F_KL2", "F_KL1", "F_KCHI2", "F_KHELL"]}]}
{"id": "C180", "title": "vl_alldist2 on unsigned data is exact modulo 2^32", "statement": "For unsigned classes the norms without division and roots give the exact value modulo 2^32, LINF the exact value; for bytes and L2 the value is exact up to 66051 rows.", "quantifier": "all unsigned matrices", "why_tests_cant": "all matrices and numbers of rows", "anchors": [{"file": "toolbox/misc/vl_alldist2.c", "symbols": ["DEF_CLASS", "F_L2", "F_L1", "F_L0", "F_LINF", "F_KL2", "F_KL1"]}]}
{"id": "C181", "title": "vl_imsmooth convolves each channel with the kernel and sub-samples", "statement": "For every image, number of channels, kernel, padding, sigma that is not negative and sub-sampling step, pixel (y,x) of a channel of the result of vl_imsmooth is the convolution of the extended channel with the product of two Gaussians or triangles at pixel (y step, x step); the kernels have unit mass, so that constant images stay constant; without smoothing and sub-sampling the image is copied.", "quantifier": "all images, numbers of channels, sigmas, steps and contents of fresh memory", "why_tests_cant": "all sizes and parameters", "anchors": [{"file": "toolbox/imop/vl_imsmooth.c", "symbols": ["_vl_imsmooth_smooth_", "mexFunction"]}, {"file": "vl/imopv.c", "symbols": ["vl_imconvcol_vf", "vl_imconvcoltri_f"]}]}
{"id": "C182", "title": "vl_imsmooth is safe for every sigma and step", "statement": "For every sigma and sub-sampling step vl_imsmooth gives a result or reports an error; it does not access memory outside its images.", "quantifier": "all scalars sigma and step", "why_tests_cant": "all values of the options", "anchors": [{"file": "toolbox/imop/vl_imsmooth.c", "symbols": ["mexFunction"]}]}
{"id": "C183", "title": "A kd-tree forest survives the way through MATLAB", "statement": "A forest that vl_kdtreebuild returns is accepted by vl_kdtreequery with the same data and denotes the same trees, with the right parents; with the l2 distance and no limit on the comparisons column q of the results has the nearest neighbours of query q, counted from one and by increasing distance, followed by zeros with distance NaN if there are fewer data, whatever the threads do.", "quantifier": "all forests of fewer than 2^30 points, all queries, divisions among threads and schedules", "why_tests_cant": "all forests and schedules", "anchors": [{"file": "toolbox/misc/kdtree.h", "symbols": ["new_array_from_kdforest", "new_kdforest_from_array", "restore_parent_recursively"]}, {"file": "toolbox/misc/vl_kdtreequery.c", "symbols": ["mexFunction"]}]}
{"id": "C184", "title": "vl_kdtreequery refuses inconsistent forests", "statement": "For any structure given as a forest, with fields of the right classes, vl_kdtreequery reports an error or answers without reading outside its arrays.", "quantifier": "all structures with fields of the documented classes", "why_tests_cant": "all contents of the structure", "anchors": [{"file": "toolbox/misc/kdtree.h", "symbols": ["new_kdforest_from_array", "restore_parent_recursively"]}]}
{"id": "C185", "title": "Approximate quantization assigns each point to a centre with its distance, whatever the threads do", "statement": "For any limit on the comparisons, number of trees, number of threads and schedule, vl_kmeans_quantize_ann assigns each point to a centre and returns the distance of that centre; the result does not depend on the schedule; with update a point changes centre only if the new one is closer; with the Euclidean distance and no limit the centres are nearest ones.", "quantifier": "all data, centres, limits, forests, threads and schedules", "why_tests_cant": "all schedules and limits", "anchors": [{"file": "vl/kmeans.c", "symbols": ["_vl_kmeans_quantize_ann_", "vl_kmeans_quantize_ann"]}, {"file": "vl/kdtree.c", "symbols": ["vl_kdforestsearcher_query", "vl_kdforest_build"]}]}
{"id": "C186", "title": "k-means with approximate neighbours never increases the energy", "statement": "For any limit on the comparisons, forest and schedule, the energies of the successive iterations of k-means with approximate nearest neighbours never increase; the value returned is the cost of the final assignment; the result does not depend on the schedule; the number of iterations is bounded and the stopping rule is the documented one; with the Euclidean distance and no limit the value is the k-means energy of the final centres.", "quantifier": "all data with at least as many points as centres, all initial centres, limits, forests, random streams and schedules", "why_tests_cant": "all runs and schedules", "anchors": [{"file": "vl/kmeans.c", "symbols": ["_vl_kmeans_refine_centers_ann_", "_vl_kmeans_quantize_ann_"]}]}
{"id": "C187", "title": "Gaussian mixtures are initialised as documented", "statement": "For all data the random initialisation gives equal weights, means that are data points chosen by k-means++ and the variance of the data in all components; the initialisation by k-means gives each component the fraction, the mean and the variance (not less than the lower bound) of the points nearest to its centre, and weights that are probabilities; the default k-means run always succeeds if there are at least as many points as components.", "quantifier": "all data, numbers of components, random streams, distances, contents of fresh memory and schedules", "why_tests_cant": "all data and streams", "anchors": [{"file": "vl/gmm.c", "symbols": ["_vl_gmm_init_with_rand_data_", "_vl_gmm_compute_init_sigma_", "_vl_gmm_init_with_kmeans_"]}]}
{"id": "C188", "title": "vl_gmm_cluster keeps the best repetition", "statement": "For all data, initialisations, numbers of repetitions and iterations and schedules, vl_gmm_cluster returns the mixture, the posteriors and the log-likelihood of the first repetition with the largest log-likelihood, and these belong together; with a starting point given by the user the result depends on this starting point, the data and the settings only.", "quantifier": "all data, initialisations, numbers of repetitions, schedules and contents of fresh memory", "why_tests_cant": "all runs and contents of memory", "anchors": [{"file": "vl/gmm.c", "symbols": ["vl_gmm_cluster", "vl_gmm_em"]}]}
{"id": "C189", "title": "Rendering of HOG descriptors superimposes the weighted glyphs", "statement": "For every descriptor, variant and glyph set, vl_hog_render stays within its buffers and sets each pixel of a cell to the sum of the glyphs by their weights (the features of the orientation added up), limited to the range of the weights of the cell and zero; what the output buffer contained does not matter.", "quantifier": "all descriptors, numbers of cells and orientations, and contents of the output buffer", "why_tests_cant": "all sizes and contents of the buffer", "anchors": [{"file": "vl/hog.c", "symbols": ["vl_hog_render"]}]}
{"id": "C190", "title": "HOG glyphs are bars orthogonal to the gradient", "statement": "For every number of orientations and for normal and transposed objects, the glyph of orientation k is one exactly on a digital bar through the centre whose pixels are within half a pixel of the line orthogonal to the direction k pi / numOrientations, and zero elsewhere; drawing it accesses nothing out of bounds.", "quantifier": "all numbers of orientations, all orientations and pixels", "why_tests_cant": "all numbers of orientations", "anchors": [{"file": "vl/hog.c", "symbols": ["vl_hog_new", "vl_hog_get_glyph_size"]}]}
{"id": "C191", "title": "The SIFT filter computes the Gaussian scale space", "statement": "For every image, number of octaves and levels and first octave, and whatever was done with the filter object before, after vl_sift_process_first_octave and k calls of vl_sift_process_next_octave level i of the octave is the image resampled to the octave and smoothed by Gaussians, extended by the nearest pixel, up to the scale 1.6 * 2^(i / S) pixels; the filter that the object keeps between smoothings has no effect.", "quantifier": "all images, sizes, numbers of octaves and levels, first octaves and histories of calls", "why_tests_cant": "all histories and sizes", "anchors": [{"file": "vl/sift.c", "symbols": ["_vl_sift_smooth", "vl_sift_new", "vl_sift_process_first_octave", "vl_sift_process_next_octave"]}]}
{"id": "C192", "title": "Starting an image with a SIFT filter stays within its buffers", "statement": "For every image with at least one pixel and every first octave, vl_sift_process_first_octave writes only within the buffers allocated by vl_sift_new.", "quantifier": "all image sizes and first octaves", "why_tests_cant": "all sizes", "anchors": [{"file": "vl/sift.c", "symbols": ["vl_sift_new", "copy_and_downsample", "vl_sift_process_first_octave"]}]}
{"id": "C193", "title": "The Laplacian bank of the covariant detector holds Laplacians of Gaussians", "statement": "Whatever the allocated memory contained, after vl_covdet_new each of the ten filters of the bank is the five-point Laplacian of a normalised Gaussian, cut at three standard deviations, that takes a patch of scale 1/sqrt(2) to the scale 2^(s/9)/sqrt(2); every access stays within the bank.", "quantifier": "all contents of fresh memory, all filters and positions", "why_tests_cant": "all contents of memory", "anchors": [{"file": "vl/covdet.c", "symbols": ["vl_covdet_new"]}, {"file": "vl/imopv.c", "symbols": ["vl_imsmooth_f"]}]}
{"id": "C194", "title": "Laplacian scale selection does not depend on brightness or shading", "statement": "For every patch, adding to it a constant or any linear gradient changes neither the number of Laplacian scales found for it, nor the scales, nor their scores.", "quantifier": "all patches, all planes, all thresholds", "why_tests_cant": "all real patches and planes", "anchors": [{"file": "vl/covdet.c", "symbols": ["vl_covdet_new", "vl_covdet_extract_laplacian_scales_for_frame"]}]}
{"id": "C195", "title": "The window of the affine adaptation is a Gaussian", "statement": "Whatever the allocated memory contained, after vl_covdet_new sample (x,y) of the window is the value at its position in the patch of a Gaussian with standard deviation 3.", "quantifier": "all contents of fresh memory, all positions", "why_tests_cant": "all positions and contents of memory", "anchors": [{"file": "vl/covdet.c", "symbols": ["vl_covdet_new"]}]}
{"id": "C196", "title": "The ROC curve counts the samples of each sign among the highest scores", "statement": "For all labels, scores and numbers of positives and negatives given, vl_roc returns for each k the true positive rate and the true negative rate of the k samples with the largest scores, ties being broken by position; samples with label zero count in no rate, and samples with score -inf are retrieved only with the option IncludeInf.", "quantifier": "all labels, scores and options", "why_tests_cant": "all labels and scores", "anchors": [{"file": "toolbox/plotop/vl_tpfp.m", "symbols": ["vl_tpfp"]}, {"file": "toolbox/plotop/vl_roc.m", "symbols": ["vl_roc"]}]}
{"id": "C197", "title": "The area under the ROC curve is the probability of ranking a positive above a negative", "statement": "If all samples are retrieved and the scores are distinct, the area that vl_roc returns is the fraction of the pairs of a positive and a negative sample in which the positive has the larger score; in general it is the area for the ranking used, the samples not retrieved counting as documented. It does not depend on the order in which the samples are given.", "quantifier": "all labels, scores and options", "why_tests_cant": "all labels and scores", "anchors": [{"file": "toolbox/plotop/vl_roc.m", "symbols": ["vl_roc"]}, {"file": "toolbox/plotop/vl_tpfp.m", "symbols": ["vl_tpfp"]}]}
{"id": "C198", "title": "The equal error rate is where the two errors cross", "statement": "The equal error rate e of vl_roc is such that the curve, interpolated linearly, has a point where the false positive and the false negative rates are both e; the threshold is the score of the sample at which this happens. It is NaN only if the true negative rate exceeds the true positive rate after every number of samples.", "quantifier": "all labels, scores and options", "why_tests_cant": "all labels and scores", "anchors": [{"file": "toolbox/plotop/vl_roc.m", "symbols": ["vl_roc"]}]}
{"id": "C199", "title": "Precision, recall and average precision", "statement": "For all labels and scores vl_pr returns for each k the recall and the precision of the k samples with the largest scores (one if there are none); the average precision is the sum of the precisions at the ranks of the positive samples, divided by the number of positive samples, retrieved or not.", "quantifier": "all labels, scores and numbers of positives", "why_tests_cant": "all labels and scores", "anchors": [{"file": "toolbox/plotop/vl_pr.m", "symbols": ["vl_pr"]}, {"file": "toolbox/plotop/vl_tpfp.m", "symbols": ["vl_tpfp"]}]}
{"id": "C200", "title": "Interpolated precision never increases", "statement": "With the option Interpolate the precision that vl_pr returns after k samples is the largest precision after k or more samples, so that it never increases with k; the average precision is the average of these values and is equal to the area.", "quantifier": "all labels, scores and options", "why_tests_cant": "all labels and scores", "anchors": [{"file": "toolbox/plotop/vl_pr.m", "symbols": ["vl_pr"]}]}
{"id": "C201", "title": "The eleven-point average precision", "statement": "The eleven-point average precision of vl_pr is the average, over the recall levels 0, 0.1 to 1, of the largest precision at which the level is reached by some retrieved samples.", "quantifier": "all labels and scores", "why_tests_cant": "all labels and scores", "anchors": [{"file": "toolbox/plotop/vl_pr.m", "symbols": ["vl_pr"]}]}
{"id": "C202", "title": "The stable output of the curves follows the order of the samples", "statement": "With the option Stable, vl_roc and vl_pr return one value for each sample, in the order of the samples: the value of the curve after the sample, or NaN if its score is -inf.", "quantifier": "all labels and scores", "why_tests_cant": "all labels and scores", "anchors": [{"file": "toolbox/plotop/vl_roc.m", "symbols": ["vl_roc"]}, {"file": "toolbox/plotop/vl_pr.m", "symbols": ["vl_pr"]}]}
{"id": "C203", "title": "Reading a PGM file gives back its resources, whatever the file contains", "statement": "For every file, existing or not, vl_pgm_read_new and vl_pgm_read_new_f return an image or an error code, free nothing that was not allocated, close the file that they opened exactly once, and with an error code leave no memory allocated.", "quantifier": "all files and contents of files", "why_tests_cant": "all contents of files", "anchors": [{"file": "vl/pgm.c", "symbols": ["vl_pgm_read_new", "vl_pgm_read_new_f", "vl_pgm_extract_head", "vl_pgm_extract_data"]}]}
{"id": "C204", "title": "A PGM file written with success holds the image and can be read", "statement": "vl_pgm_write closes its file and changes no other one; if it returns zero the file holds the preamble and all pixels, whatever the room on the medium, and vl_pgm_read_new reads the same image from it.", "quantifier": "all images, and all sizes of the medium at which writing stops", "why_tests_cant": "all images and points at which the medium is full", "anchors": [{"file": "vl/pgm.c", "symbols": ["vl_pgm_write", "vl_pgm_insert", "vl_pgm_read_new"]}]}
{"id": "C205", "title": "Floating point images are written to PGM files in the order of their values", "statement": "vl_pgm_write_f converts every pixel to a byte without leaving the range of bytes, the smallest pixel to 0, and a pixel that is not larger than another one to a byte that is not larger; the temporary block and the file are given back.", "quantifier": "all images with at least one pixel, of at most 2^31 - 1 pixels", "why_tests_cant": "all images", "anchors": [{"file": "vl/pgm.c", "symbols": ["vl_pgm_write_f", "vl_pgm_write"]}]}
{"id": "C206", "title": "K-means objects give back their memory after any history", "statement": "Whatever the order in which k-means objects are created, copied, reset, given centers, refined, trained and deleted, no block is freed twice, used after it is freed or written past its end; the live blocks are those of the objects that exist, and when all are deleted the heap is as it was.", "quantifier": "all histories of calls on any number of k-means objects, all data and all contents of new blocks", "why_tests_cant": "all histories", "anchors": [{"file": "vl/kmeans.c", "symbols": ["vl_kmeans_new", "vl_kmeans_new_copy", "vl_kmeans_delete", "vl_kmeans_reset", "vl_kmeans_set_centers", "vl_kmeans_refine_centers", "vl_kmeans_cluster"]}]}
{"id": "C207", "title": "K-means clustering keeps the centers of the best repetition", "statement": "After vl_kmeans_cluster the center block of the object holds the centers of the first repetition with the least energy, the energy returned is that one, and no block of another object has changed.", "quantifier": "all states reached by histories of calls, all numbers of repetitions and outcomes", "why_tests_cant": "all histories and outcomes", "anchors": [{"file": "vl/kmeans.c", "symbols": ["vl_kmeans_cluster"]}]}
{"id": "C208", "title": "A copy of a k-means object is a faithful and independent object", "statement": "vl_kmeans_new_copy gives an object with the settings, centers and distances of the original in blocks of its own, and does not change the original.", "quantifier": "all states reached by histories of calls and all contents of new blocks", "why_tests_cant": "all histories and contents of memory", "anchors": [{"file": "vl/kmeans.c", "symbols": ["vl_kmeans_new_copy"]}]}
{"id": "C209", "title": "Gaussian mixtures give back their memory after any history", "statement": "Whatever the order in which a mixture is configured, initialised, trained, reset and given a k-means object, no block is freed twice, used after it is freed or written past its end, the objects of the client do not change, and deleting the mixture gives back all of its blocks.", "quantifier": "all histories of calls on a mixture beside any number of k-means objects", "why_tests_cant": "all histories", "anchors": [{"file": "vl/gmm.c", "symbols": ["vl_gmm_new", "vl_gmm_reset", "vl_gmm_delete", "_vl_gmm_prepare_for_data", "vl_gmm_cluster", "vl_gmm_set_kmeans_init_object", "vl_gmm_set_covariance_lower_bounds"]}]}
{"id": "C210", "title": "Gaussian mixture clustering keeps the best repetition", "statement": "After vl_gmm_cluster started by k-means or by random data the mixture holds the parameters, the posteriors and the log-likelihood of the first repetition with the greatest log-likelihood, and the lower bounds that were set.", "quantifier": "all states reached by histories of calls, all numbers of repetitions and outcomes", "why_tests_cant": "all histories and outcomes", "anchors": [{"file": "vl/gmm.c", "symbols": ["vl_gmm_cluster"]}]}
{"id": "C211", "title": "Each repetition starts from the parameters of the client", "statement": "When the initialization is VlGMMCustom, every repetition of vl_gmm_cluster runs expectation maximization from the means, covariances and priors that the client has set.", "quantifier": "all states reached by histories of calls, all numbers of repetitions", "why_tests_cant": "all histories", "anchors": [{"file": "vl/gmm.c", "symbols": ["vl_gmm_cluster", "vl_gmm_set_means", "vl_gmm_set_covariances", "vl_gmm_set_priors"]}]}
{"id": "C212", "title": "A copy of a Gaussian mixture is a faithful and independent object", "statement": "vl_gmm_new_copy gives a mixture with the settings, parameters and lower bounds of the original in blocks of its own, and does not change the original.", "quantifier": "all states reached by histories of calls", "why_tests_cant": "all histories", "anchors": [{"file": "vl/gmm.c", "symbols": ["vl_gmm_new_copy"]}]}
{"id": "C213", "title": "A mixture must not be given its own k-means object", "statement": "If a mixture has made a k-means object of its own, giving the pointer returned by vl_gmm_get_kmeans_init_object to vl_gmm_init_with_kmeans, or to vl_gmm_set_kmeans_init_object before the next initialization, uses freed memory.", "quantifier": "all states reached by histories of calls", "why_tests_cant": "all histories", "anchors": [{"file": "vl/gmm.c", "symbols": ["vl_gmm_init_with_kmeans", "vl_gmm_set_kmeans_init_object", "vl_gmm_get_kmeans_init_object"]}]}
{"id": "C214", "title": "SVM objects report a lack of memory and give back their blocks", "statement": "Creating and deleting an SVM leaves the heap as it was, and if a block cannot be allocated the creation returns NULL and leaves the heap as it was.", "quantifier": "all solvers, dimensions and numbers of data, and all patterns of failing allocations", "why_tests_cant": "all patterns of failing allocations", "anchors": [{"file": "vl/svm.c", "symbols": ["vl_svm_new", "vl_svm_new_with_abstract_data", "vl_svm_delete"]}]}
{"id": "C215", "title": "Scale space objects report a lack of memory and give back their blocks", "statement": "vl_scalespace_new returns NULL exactly if an allocation fails; creating and deleting a scale space leaves the heap as it was, and so does a creation that returns NULL.", "quantifier": "all geometries and all patterns of failing allocations", "why_tests_cant": "all patterns of failing allocations", "anchors": [{"file": "vl/scalespace.c", "symbols": ["vl_scalespace_new_with_geometry", "vl_scalespace_delete"]}]}
{"id": "C216", "title": "A copy of a scale space is a faithful and independent object", "statement": "vl_scalespace_new_copy gives a scale space with the geometry and the contents of the original in blocks of its own, and does not change the original; it returns NULL exactly if an allocation fails.", "quantifier": "all geometries, contents and patterns of failing allocations", "why_tests_cant": "all contents and patterns of failing allocations", "anchors": [{"file": "vl/scalespace.c", "symbols": ["vl_scalespace_new_copy"]}]}
{"id": "C217", "title": "The searchers of a forest form a list under every history", "statement": "Whatever the order in which searchers are made and deleted, by one thread or by the critical sections of several, and the forest is built and queried in between, every call is defined, vl_kdforest_get_searcher walks through exactly the searchers that exist in the order in which they were made, and it returns NULL after the last one.", "quantifier": "all histories of calls on a forest, so all schedules of the critical sections of parallel queries", "why_tests_cant": "all histories and schedules", "anchors": [{"file": "vl/kdtree.c", "symbols": ["vl_kdforest_new_searcher", "vl_kdforestsearcher_delete", "vl_kdforest_get_searcher", "vl_kdforest_query", "vl_kdforest_query_with_array"]}]}
{"id": "C218", "title": "Deleting a forest gives back all its memory", "statement": "vl_kdforest_delete deletes the searchers that are left, frees each block of the forest once, and leaves the heap as it was before the forest was created.", "quantifier": "all histories of calls on a forest", "why_tests_cant": "all histories", "anchors": [{"file": "vl/kdtree.c", "symbols": ["vl_kdforest_delete", "vl_kdforest_build"]}]}
{"id": "C219", "title": "Every searcher can be used with the data of its forest", "statement": "A searcher that belongs to a forest can visit each of the data with which the forest was built, whenever the searcher was made.", "quantifier": "all histories of calls on a forest and all data", "why_tests_cant": "all histories", "anchors": [{"file": "vl/kdtree.c", "symbols": ["vl_kdforest_new_searcher", "vl_kdforest_build", "vl_kdforest_query_recursively"]}]}
{"id": "C220", "title": "A dense SIFT filter serves any sequence of settings and images", "statement": "Whatever the order in which steps, bounds and geometry are set and images processed, every call is defined, each image leaves exactly the announced number of keypoints and descriptors, and vl_dsift_delete gives back all the blocks of the filter; the announced number of descriptors can be read after every call that follows an image.", "quantifier": "all histories of calls on a filter, all geometries and image sizes", "why_tests_cant": "all histories", "anchors": [{"file": "vl/dsift.c", "symbols": ["vl_dsift_new", "vl_dsift_process", "vl_dsift_delete", "_vl_dsift_alloc_buffers", "_vl_dsift_free_buffers"]}, {"file": "vl/dsift.h", "symbols": ["vl_dsift_set_steps", "vl_dsift_set_bounds", "vl_dsift_set_geometry", "vl_dsift_get_descriptors"]}]}
{"id": "C221", "title": "An MSER filter serves any sequence of images and fits", "statement": "Whatever the order in which images are processed and ellipsoids fitted, every call is defined, after an image the regions are those of this image and no ellipsoid is announced, fitting then gives one ellipsoid for each of these regions and a second fit changes nothing, and vl_mser_delete gives back all the blocks of the filter.", "quantifier": "all histories of calls on a filter, all numbers of regions in each image", "why_tests_cant": "all histories", "anchors": [{"file": "vl/mser.c", "symbols": ["vl_mser_new", "vl_mser_process", "vl_mser_ell_fit", "vl_mser_delete"]}, {"file": "vl/mser.h", "symbols": ["vl_mser_get_regions", "vl_mser_get_ell"]}]}
{"id": "C222", "title": "A hierarchical k-means tree gives back its memory after any history", "statement": "Whatever the order in which a tree is initialised and trained, every call is defined, and vl_hikm_delete frees each node, quantizer and array of children once and leaves the heap as it was before the tree was created.", "quantifier": "all histories of calls on a tree, all depths, branching factors and partitions of the data", "why_tests_cant": "all histories and trees", "anchors": [{"file": "vl/hikmeans.c", "symbols": ["vl_hikm_new", "vl_hikm_init", "vl_hikm_train", "vl_hikm_delete"]}, {"file": "vl/ikmeans.c", "symbols": ["vl_ikm_new", "vl_ikm_delete"]}]}
{"id": "C223", "title": "The splits of kd-trees follow the variance of the points", "statement": "Each node of a built tree is split along a dimension in which its points vary, one of largest variance when the forest has one tree and one of the min(number of trees, 5) largest otherwise, so that points that share a leaf coincide.", "quantifier": "all data of every size, all seeds, numbers of trees, both thresholding methods", "why_tests_cant": "all data sets, all random choices", "anchors": [{"file": "vl/kdtree.c", "symbols": ["vl_kdtree_build_recursively", "vl_kdforest_build"]}, {"file": "vl/kdtree.h", "symbols": ["VL_KDTREE_SPLIT_HEAP_SIZE"]}]}
{"id": "C224", "title": "Headers of PGM files may contain any white space and comments", "statement": "vl_pgm_extract_head accepts every header of the documented form, whatever white space and comments separate its fields and with leading zeros or not, returns its width, height, maximum value and kind, and leaves the file at the first byte of the pixels.", "quantifier": "all headers of the documented form and all bytes after them", "why_tests_cant": "all layouts of headers", "anchors": [{"file": "vl/pgm.c", "symbols": ["vl_pgm_extract_head", "remove_blanks", "remove_line"]}]}
{"id": "C225", "title": "Text images may be laid out in any way", "statement": "The pixels of a text image are read in order whatever white space comes before and between the numbers, each number reduced modulo the range of a pixel, and what follows them is ignored; if there are too few numbers the reader reports invalid data.", "quantifier": "all text images, all layouts, all numbers that fit in an unsigned int", "why_tests_cant": "all layouts of text images", "anchors": [{"file": "vl/pgm.c", "symbols": ["vl_pgm_extract_data", "vl_pgm_get_bpp", "vl_pgm_get_npixels"]}]}
{"id": "C226", "title": "A covariant detector serves any sequence of settings and images and gives back its memory", "statement": "Whatever the order in which settings are changed, images put and searched, features added and removed, and patches extracted, provided that an image is put before it is used, every call is defined; and after any defined history, with any requests of memory failing, vl_covdet_delete frees each block of the detector once and leaves the heap as it was before the detector was created.", "quantifier": "all histories of calls on a detector, all geometries, all patterns of failing allocations", "why_tests_cant": "all histories and patterns of failing allocations", "anchors": [{"file": "vl/covdet.c", "symbols": ["vl_covdet_new", "vl_covdet_reset", "vl_covdet_delete", "vl_covdet_put_image", "vl_covdet_detect", "vl_covdet_append_feature", "vl_covdet_extract_patch_helper", "_vl_resize_buffer", "vl_covdet_set_first_octave", "vl_covdet_set_octave_resolution"]}]}
{"id": "C227", "title": "The description of the processor is complete and correct", "statement": "On x86, whatever the processor answers, the flags for MMX, SSE, SSE2, SSE3, SSE4.1, SSE4.2 and AVX are set exactly when the processor announces the instruction set, and the description of the processor is the name of its vendor followed by the names of these sets, complete and terminated, in a new block of exactly this size, or NULL if it cannot be allocated.", "quantifier": "all answers of the CPUID instruction, all states of the allocator", "why_tests_cant": "all processors, all failures of the allocator", "anchors": [{"file": "vl/host.c", "symbols": ["_vl_x86cpu_info_init", "_vl_x86cpu_info_to_string_copy"]}, {"file": "vl/generic.c", "symbols": ["vl_cpu_has_avx", "vl_cpu_has_sse3", "vl_cpu_has_sse2"]}]}
{"id": "C228", "title": "The description of the configuration can be printed everywhere", "statement": "vl_configuration_to_string_copy returns the complete description in a new block of exactly the right size, or NULL if there is no memory, and leaves no other block allocated, on every processor.", "quantifier": "all processors, all static configurations, all states and failures of the allocator", "why_tests_cant": "all platforms, all failures of the allocator", "anchors": [{"file": "vl/generic.c", "symbols": ["vl_configuration_to_string_copy"]}, {"file": "vl/host.c", "symbols": ["vl_static_configuration_to_string_copy", "_vl_x86cpu_info_to_string_copy"]}]}
{"id": "C229", "title": "The random numbers and timers of a thread do not depend on the other threads", "statement": "In every interleaving of the calls of any number of threads, the numbers that a thread draws from vl_get_rand are those of the MT19937 sequence of its own last seed (5489 for a new thread), at the position given by its own earlier draws, and vl_toc returns the time since its own last vl_tic; when a thread ends its state is freed, and nothing is left when the last thread unloads the library.", "quantifier": "all numbers of threads, all interleavings of calls, all ends and beginnings of threads", "why_tests_cant": "all schedules", "anchors": [{"file": "vl/generic.c", "symbols": ["vl_get_rand", "vl_tic", "vl_toc", "vl_get_thread_specific_state", "vl_thread_specific_state_new", "vl_thread_specific_state_delete", "vl_destructor"]}, {"file": "vl/random.c", "symbols": ["vl_rand_init", "vl_rand_seed"]}]}
{"id": "C230", "title": "An object uses the random numbers of the thread that uses it", "statement": "A kd-tree forest can be made by one thread and built by another, and uses the random numbers of the thread that builds it, as documented for objects that are accessed by one thread at a time.", "quantifier": "all interleavings of calls of any number of threads, with forests made before they are built", "why_tests_cant": "all schedules", "anchors": [{"file": "vl/kdtree.c", "symbols": ["vl_kdforest_new", "vl_kdforest_build"]}, {"file": "vl/generic.c", "symbols": ["vl_get_rand", "vl_thread_specific_state_delete"]}]}
{"id": "C231", "title": "A SIFT filter serves any sequence of octaves and detections and gives back its memory", "statement": "Whatever the order in which octaves are processed, keypoints detected and gradients computed, every call is defined, each smoothing uses the filter of its own standard deviation, an octave begins with no keypoint, a detection leaves exactly the extrema that the refinement keeps, in their order and whatever their number, and vl_sift_delete frees each block of the filter once and leaves the heap as it was before the filter was created.", "quantifier": "all histories of calls on a filter, all sizes, all numbers of extrema in each detection, all refinements", "why_tests_cant": "all histories and numbers of keypoints", "anchors": [{"file": "vl/sift.c", "symbols": ["vl_sift_new", "vl_sift_delete", "_vl_sift_smooth", "vl_sift_process_first_octave", "vl_sift_process_next_octave", "vl_sift_detect", "update_gradient"]}, {"file": "vl/sift.h", "symbols": ["vl_sift_get_keypoints", "vl_sift_get_nkeypoints"]}]}
{"id": "C232", "title": "A HOG object serves any sequence of images and gives back its memory", "statement": "Whatever the order in which images are put and features extracted, and whatever the sizes of the images and of the cells, every call is defined, the features of an image are computed from the histograms and norms of this image alone, as if the object were new, and vl_hog_delete frees each block of the object once and leaves the heap as it was before the object was created.", "quantifier": "all histories of calls on an object, all sizes of images and cells, all numbers of orientations", "why_tests_cant": "all histories and sizes", "anchors": [{"file": "vl/hog.c", "symbols": ["vl_hog_new", "vl_hog_delete", "vl_hog_prepare_buffers", "vl_hog_put_image", "vl_hog_put_polar_field", "vl_hog_extract"]}]}
{"id": "C233", "title": "An SVM data set serves any sequence of kernel maps and gives back its memory", "statement": "Kernel maps may be set, replaced and removed at any time between uses of a data set: every call is defined, the inner product and accumulate functions are those of the vectors mapped by the map that was set last, whatever maps were set before and whatever their dimensions, and after any defined history, with any requests of memory failing, vl_svmdataset_delete frees each block of the object once and leaves the heap as it was before the object was created.", "quantifier": "all histories of calls on a data set, all data, maps and models, all patterns of failing allocations", "why_tests_cant": "all histories and patterns of failing allocations", "anchors": [{"file": "vl/svmdataset.c", "symbols": ["vl_svmdataset_new", "vl_svmdataset_delete", "vl_svmdataset_set_homogeneous_kernel_map", "vl_svmdataset_get_inner_product_function", "vl_svmdataset_get_accumulate_function"]}]}
{"id": "C234", "title": "A data set without memory for its buffer is not used", "statement": "If the buffer for the values of a kernel map cannot be allocated, using the data set is still defined.", "quantifier": "all patterns of failing allocations, all data and maps", "why_tests_cant": "all patterns of failing allocations", "anchors": [{"file": "vl/svmdataset.c", "symbols": ["vl_svmdataset_set_homogeneous_kernel_map", "_vl_svmdataset_inner_product_hom_f"]}]}
{"id": "C235", "title": "Only instructions that the machine can execute are executed", "statement": "Whatever the processor and the operating system, and whatever sequence of comparisons, convolutions, mixture updates and changes of vl_set_simd_enabled, the library executes only instructions that the machine can execute, each call executes exactly one version of its function, and after vl_set_simd_enabled(VL_FALSE) only plain code is executed.", "quantifier": "all answers of the processor, all states of the operating system, all histories of calls", "why_tests_cant": "all processors and histories", "anchors": [{"file": "vl/mathop.c", "symbols": ["vl_get_vector_comparison_function", "vl_get_vector_3_comparison_function"]}, {"file": "vl/gmm.c", "symbols": ["vl_gmm_maximization"]}, {"file": "vl/imopv.c", "symbols": ["vl_imconvcol"]}, {"file": "vl/generic.c", "symbols": ["vl_set_simd_enabled", "vl_cpu_has_avx", "vl_cpu_has_sse2"]}, {"file": "vl/host.c", "symbols": ["_vl_x86cpu_info_init"]}]}
{"id": "C236", "title": "Image filters, the distance transform and the segmentation give back their memory", "statement": "Whatever sequence of calls of the triangular filter, Gaussian smoothing, the distance transform and SLIC, and whatever the sizes, sigmas and region sizes, every call stays inside the blocks that it allocated, frees each of them once, and leaves the live memory as it was.", "quantifier": "all sequences of calls, all sizes, sigmas and contents of fresh memory", "why_tests_cant": "all sizes and sequences of calls", "anchors": [{"file": "vl/imopv.c", "symbols": ["vl_imconvcoltri_", "vl_imsmooth_", "vl_image_distance_transform_", "_vl_new_gaussian_fitler_"]}, {"file": "vl/slic.c", "symbols": ["vl_slic_segment"]}]}
{"id": "C237", "title": "A LIOP object serves any sequence of patches and gives back its memory", "statement": "Whatever patches were described before, every call of vl_liopdesc_process is defined, reads the patch only at the pixels in the disc around its centre, and computes the descriptor from the present patch alone; vl_liopdesc_delete frees each block of the object once and leaves the heap as it was before the object was created.", "quantifier": "all numbers of neighbours, sides, radii and sequences of patches, all contents of fresh memory", "why_tests_cant": "all sequences of patches and sizes", "anchors": [{"file": "vl/liop.c", "symbols": ["vl_liopdesc_new", "vl_liopdesc_delete", "vl_liopdesc_process"]}, {"file": "vl/liop.h", "symbols": ["VlLiopDesc"]}]}
{"id": "C238", "title": "A quick shift object serves any sequence of runs and gives back its memory", "statement": "vl_quickshift_process may be called any number of times, with or without medoids and with any settings: every call is defined and gives back its scratch memory, the densities are the sums of the contributions of all the runs, the parents and distances are those of the last run for these densities, and vl_quickshift_delete frees each block once.", "quantifier": "all sizes of images, all sequences of runs and settings", "why_tests_cant": "all sequences of runs", "anchors": [{"file": "vl/quickshift.c", "symbols": ["vl_quickshift_new", "vl_quickshift_process", "vl_quickshift_delete"]}, {"file": "vl/quickshift.h", "symbols": ["VlQS"]}]}
{"id": "C239", "title": "The axes of an oriented feature follow the orientation found in its patch", "statement": "For every feature whose matrix vl_svd2 decomposes, the patch in which orientations are measured shows the ellipse of the feature with the axes of the ellipse along those of the patch, and if an orientation phi is found there then the first axis of the oriented feature (the second if the image is transposed) is the image of the direction phi of the patch, and the other axis that of the direction at a right angle; the centre and the area of the feature do not change.", "quantifier": "all frames that are decomposed, all orientations and scores, both conventions, real arithmetic", "why_tests_cant": "all frames and angles", "anchors": [{"file": "vl/covdet.c", "symbols": ["vl_covdet_extract_orientations_for_frame", "vl_covdet_extract_orientations"]}, {"file": "vl/mathop.c", "symbols": ["vl_svd2"]}]}
