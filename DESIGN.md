# Formal model of VLFeat in Lean 4 — design

The properties are listed in `properties.jsonl` (C01 …).  The status of each one and the exact names of the
theorems that settle it are in `MANIFEST.json`.  Deliberate-bug experiments are logged in `seeded/LOG.jsonl`.

## Trusted base

* Lean 4.33.0's kernel.  Every theorem depends at most on the three standard axioms `propext`,
  `Classical.choice`, `Quot.sound` (many on fewer); no axiom is added, no proof is left open, no compiled
  evaluation is used.  Finite tables are settled by kernel evaluation (`decide`).
* The faithfulness of the model: each definition carries the file and the lines of `/repo` that it transcribes, and
  says where it simplifies.  Nothing mechanical ties the C text to the Lean text; the reader must compare them.
* C semantics that the model assumes: `vl_uint32`/`vl_uint64` arithmetic is modulo 2^32/2^64 (`BitVec`), `vl_size`,
  `vl_index`, `int` are unbounded unless a comment says otherwise (no 64-bit wrap-around for sizes).

## General modelling decisions

* **Arrays** are Lean lists.  Reads and writes go through accessors that return `none` when the index is outside the
  array (`Verif/Base.lean`): `none` stands for undefined behaviour / failed `assert`.  Theorems of the form
  `f … = some r ∧ …` therefore include memory safety.
* **Numbers.**  Integer code is modelled exactly.  Floating point code is modelled over an arbitrary linear order, an
  ordered field, or the reals: rounding, NaN and infinities are **not** modelled unless stated.  Where a
  real function (exp, sqrt, …) is used the model is over `ℝ`.
* **Loops** become structural recursions over the loop counter or well-founded recursions with the loop's own measure, so
  termination is part of what Lean checks.
* **Random numbers** are an arbitrary stream supplied from outside (universally quantified), except in the MT19937 model
  itself.
* **Allocation** never fails in the model, except for the feature buffer of the covariant detector, where every outcome is
  considered.  A new block has arbitrary content (a universally quantified parameter).  Printing and timing are not modelled.
* **SIMD variants** are modelled for the vector comparisons, the weighted updates and the column convolution: registers
  are lists of lanes and blocks have addresses, so that a misaligned load is an error.
* **Threads** (lock, thread state, parallel queries): interleaving semantics with atomic steps at the granularity of the
  pthread calls.
* When the code violates a property, the negation is proved on a concrete witness, and what does hold is proved under a
  name ending in `_partial` (or under an extra hypothesis that is spelled out).

Layout: for each area `X`, `Verif/X/Model.lean` is the transcription, `Verif/X/Spec.lean` (or the head of `Props.lean`) the
independent specification, `Verif/X/Lemmas.lean` auxiliary facts, `Verif/X/Props.lean` the property theorems with
examples showing that hypotheses are met.

## Plan per property

| id | model | proof |
|----|-------|-------|
| C01 | heap-def.h push/pop/update/up/down on a list with an arbitrary three-way comparison | heap order except at one node as invariant of sifting; induction on the sift; then induction over operation sequences |
| C02 | same | root is minimum by induction on the index; multiset accounting |
| C03 | qsort-def.h on a list | partition invariant; well-founded induction on segment length |
| C04 | shuffle-def.h and vl_rand_permute_indexes driven by an arbitrary index stream | induction; injectivity of choice sequence → permutation, counting |
| C05 | random.h on 32/64-bit words | modular arithmetic, rationals for the real-valued ones |
| C06 | random.c with state array and index | simulation between blockwise state and the infinite recurrence |
| C07 | VL_INSTANTIATE fast sqrt loop on bit-vectors | loop invariant on naturals, no-overflow argument |
| C08–C12 | stringop.c on byte lists with explicit destination buffers | induction over the strings |
| C13 | vl_string_parse_protocol | refutation by witness plus exact characterisation of what the code accepts |
| C14 | byte lists of length 2/4/8 | computation |
| C15 | pgm.c header parser over a byte stream, payload encode/decode | refutation by witness plus payload round trip |
| C16 | lbp.c table construction | full table evaluated by the kernel against the transition-count specification |
| C17 | vl_imintegral | induction over rows |
| C18 | vl_imconvcol | decomposition of the index range into three chunks |
| C19 | vl_imconvcoltri | second-difference identity |
| C20 | distance transform | lower-envelope invariant (stack of parabolas with increasing breakpoints) |
| C21 | vl_gaussian_elimination | row operations preserve the solution set; final matrix is the identity |
| C22 | all pairs | index arithmetic |
| C23–C25 | kdtree.c build + query | structural induction over the tree; lower bound invariant of the search heap |
| C26 | ikmeans push | argmin fold; triangle inequality for integer vectors |
| C27–C30 | kmeans.c | sums over finite sets, mean/median optimality, bounds as invariants |
| C31 | hikmeans.c push | structural induction over the tree |
| C32 | aib.c merge loop | invariant over merges |
| C33–C34 | mser.c | counting sort; union-find invariant against an equivalence closure |
| C35 | quickshift.c | argmin fold, density strictly increases |
| C36 | slic.c clean-up | flood-fill invariant |
| C37 | vl_erfill.c | flood-fill invariant; refutation for duplicates |
| C38–C42 | toolbox/misc, vl_ubcmatch.c | loop invariants |
| C43–C44 | hog.c | modular arithmetic; bilinear weights |
| C45–C46 | dsift.c/.h | integer division; permutation of indices |
| C47–C48 | scalespace.c | refutation; linear arithmetic |
| C49 | liop.c | Lehmer code bijection |
| C50 | homkermap.c | index bounds from the loop invariant |
| C51 | rodrigues.c | polynomial identities over ℝ with sin²+cos²=1; derivatives |
| C52–C53 | svm.c | concave quadratic maximisation; Fenchel–Young; invariants over iterations |
| C54–C56 | gmm.c, vlad.c, fisher.c | finite sums over ℝ |
| C57–C60 | sift.c | state machine; cache refutation; walk invariant; circular filter |
| C61–C62 | generic.c | invariant over all interleavings |
| C63 | getopt_long.c | simulation; refutation |
| C64–C65 | array.c, generic.h | induction; table |
| C66 | lbp.c cell pooling | sums over a scatter loop |
| C67 | vl_imsmooth_f and its filter | composition of two column convolutions |
| C68–C71 | kmeans.c and ikmeans seeding and training | invariants over an arbitrary random stream; refutations for degenerate data |
| C72–C79 | sift.c detection, refinement, resampling, gradients, descriptors | scan invariants, walk relation, trilinear weights |
| C80 | liop.c processing | permutation ranks; refutation for ties |
| C81 | quickshift.c density | sums; refutation |
| C82 | slic.c assignment | argmin folds, energy descent |
| C83–C86 | mser.c | inclusion tree of extremal regions, selection tests, moments |
| C87–C88 | hog.c extraction and flipping | closed form of the features, symmetry of the weights |
| C89 | gmm.c expectation maximisation | loop invariants |
| C90 | aib.c | information theory over finite sums |
| C91–C92 | homkermap.c | table construction; refutation |
| C93–C94 | rodrigues.c inverse | real analysis |
| C95–C99 | svm.c, svmdataset.c | loop invariants; convexity; refutations |
| C100–C104 | covdet.c list of features, suppression, dropping | representation invariant over all histories, allocation failures included |
| C105–C106 | covdet.c extrema search and refinement | scan invariant, walk relation; refutation of the levels searched |
| C107–C108 | imopv.c gradients | row and column invariants over the stored pixels; refutation for one row |
| C109–C110 | covdet.c responses | stored-pixel invariants, composition with gradient and smoothing; refutation of the sign |
| C111–C113 | dsift.c gradients, kernels, convolutions | composition of the convolution theorems with the grid theorem by simulation of loops; refutations by evaluation |
| C114–C116 | mathop.c comparisons | sums by induction; kernels as Gram integrals (Cauchy, min, entropy) for positive definiteness; refutation of the table by evaluation |
| C117–C118 | mathop_sse2.c, mathop_avx.c | registers as lists of lanes, blocks with addresses; equality with the plain loops |
| C119 | imopv_sse2.c column convolution | lane by lane simulation of the plain loops |
| C120–C121 | mathop.h mod_2pi | induction on the iterations; refutation with rounding to nearest on 24 bits |
| C122 | mathop.h floor, ceil, round | cases on the sign and on integrality |
| C123–C124 | mathop.h fast_atan2 | monotonicity of the gap between arctan and the cubic by derivative bounds; refutation at (eps, 0) |
| C125–C126 | mathop.h fast_resqrt, fast_sqrt | bit patterns as integers; bound of the first guess by polynomial inequalities, quadratic convergence of two steps |
| C127–C129 | mathop.c svd2, dlasv2 | characteristic equation of the normal case; signs by cases; refutations by evaluation |
| C130–C132 | covdet.c patch extraction | padding invariants row by row, bilinear sampling; refutations by evaluation (last column, frame away from the image) |
| C133–C137 | covdet.c choice of level, octaves of an image | logarithms over the reals; scan relation; refutations by evaluation |
| C138–C142 | covdet.c orientations | histogram as a sum of shares, circular means, scan invariant of the peaks; list refinement of the appended features |
| C143–C146 | covdet.c Laplacian scales | sums, scan invariant of the extrema, compaction; refutations by evaluation |
| C147–C152 | covdet.c affine adaptation | inductive relation of the documented iteration, refinement of the loop by induction on the iterations left; singular values over the reals; refutations by evaluation |
| C153–C155 | toolbox/misc/vl_binsum.def | invariant: the accumulator plus the contributions so far; strides by induction on the elements; refutations by evaluation |
| C156, C157 | toolbox/misc/vl_localmax.c | positions as numbers of mixed radix; the neighbours by the rank of the odometer, the scan by an invariant on the maxima below the position; refutations by evaluation |
| C158–C160 | sign of the offset of the distance transform, toolbox/imop/vl_imdisttf.c | corollaries of C20, refutation by evaluation |
| C161, C162 | toolbox/imop/vl_imwbackwardmx.c | the bisection finds the cell; the interpolation of all the cells that contain the point agrees; refutations by evaluation |
| C163, C164 | toolbox/aib/vl_aibhist.c | walk to the root by induction on the distance from the last node, count over the data; refutations by evaluation and by an invariant of the endless loop |
| C165, C166 | vl/ikmeans_elkan.tc | bounds kept by the triangle inequality over the reals, loop invariants over passes, data and centres, with 32-bit arithmetic; refutation by the finite set of centres that Lloyd's algorithm reaches |
| C167–C169 | toolbox/kmeans/vl_hikmeans.c, vl_hikmeanspush.c | conversion of the tree to a structure and back by induction on the depth; refutations for unchecked arguments and the unused option |
| C170, C171 | vl/ikmeans_init.tc | the comparison is a lexicographic order; two runs of the seeding in lockstep; refutation by overflow |
| C172 | vl/quickshift.c, medoid | votes as sums added to two arrays; the score is the energy less the scatter; scan for the best; refutation |
| C173–C175 | toolbox/sift/vl_sift.c | the transposition as a permutation of the 128 indices, by naturality; frames of the user by an invariant over the octaves: the frames of the later octaves are a suffix; refutations by evaluation |
| C176 | vl/sift.c, detector and descriptor | corollary of C59; refutation by evaluation |
| C177–C180 | toolbox/misc/vl_alldist2.c | pointer and copy across the diagonal by an invariant over the pairs; merge of two sparse columns by induction on the rows; kernels over the reals; arithmetic modulo 2^32; refutation by evaluation |
| C181, C182 | toolbox/imop/vl_imsmooth.c | two passes of C18 and of the triangular filter with transposition, invariant over the channels; mass by sums; refutations by evaluation |
| C183, C184 | toolbox/misc/kdtree.h, vl_kdtreequery.c | induction over the shape of the tree for the restoration of the parents, then C24 and C25; totality by induction on the visits that are left; refutations by evaluation |
| C185, C186 | vl/kmeans.c 708-771, 1003-1156, over the kd-tree forest of C23-C25 | a query for one neighbour always returns a centre that does not depend on the searcher (C24, C25); induction over the order of the iterations, then over the refinement with the update of C27; refutation by evaluation |
| C187, C188 | vl/gmm.c 1315-1443, 1559-1663, over k-means (C68, C185, C186) and expectation maximisation (C89) | the maximisation with one-hot posteriors gives the statistics of the groups; invariant of the loop over the repetitions; refutation with two mixtures of one component |
| C189, C190 | vl/hog.c 276-316, 427-496 | loops over the pixels of a cell as updates of a matrix; the sums and the range of the weights as invariants over the orientations; trigonometry of the bars over ℝ |
| C191, C192 | vl/sift.c 773-816, 874-934, 977-1139 | the kept filter as an invariant of the object over any history; levels of the block by induction over levels and octaves; scales over ℝ; refutation by evaluation |
| C193–C195 | vl/covdet.c 1553-1608 | convolution of a pattern that is zero at the border as a sum over the pattern; moments of the filters by symmetry and unit mass, composed with C143–C146 |
| C196–C202 | toolbox/plotop/vl_tpfp.m, vl_roc.m, vl_pr.m | the stable sort as the ranking by score and position; sums of differences telescope; area as a double count of pairs; running maximum by induction; refutations by evaluation |
| C203–C205 | files and memory of vl/pgm.c | states of streams, blocks and files; an accepted header always has a maximum value of 65536 or more, so that the data part is never reached; refutations by evaluation |
| C206–C208 | life of k-means objects (vl/kmeans.c) | heap of blocks with addresses and contents, the objects hold addresses; invariant that the heap is made of the blocks of the objects and of the rest, kept by every call; refutation by evaluation |
| C209–C213 | life of Gaussian mixtures (vl/gmm.c) | the same, with the k-means object that a mixture owns or borrows |
| C214–C216 | SVM and scale space objects when memory runs out (vl/svm.c, vl/scalespace.c) | the same, with requests that fail by an arbitrary pattern |
| C217–C219 | searchers and blocks of a kd-forest (vl/kdtree.c) | links as a map from addresses, refined to a list; invariant over histories; refutation by evaluation |
| C220–C222 | buffers of dense SIFT and MSER filters and nodes of hierarchical k-means trees (vl/dsift.c, vl/mser.c, vl/hikmeans.c) | live blocks with their contents; invariant over histories, induction over the tree; refutations by evaluation |
| C223 | statistics and splits of kd-trees (vl/kdtree.c) | invariant of the heap of the dimensions, marks carried through the induction over the recursion; refutation with 1025 points |
| C224, C225 | headers and text pixels of PGM files (vl/pgm.c) | induction over an inductive description of white space with comments and over the list of numbers; refutation with a header of a valid image |
| C226 | scale spaces and buffers of covariant detectors (vl/covdet.c) on the heap of C206–C222 | invariant of the live blocks over histories, with failing requests; refutation with two images and a setting between them |
| C227 | answers of CPUID as a function to registers, loops that print to a new block (vl/host.c) | bits by `BitVec.and_twoPow`, two rounds of the loop computed |
| C228 | `vl_configuration_to_string_copy` with pointers that are null, literals or blocks, and any failing requests | computation of the calls; refutation for other processors and for failing requests |
| C229 | states of threads (vl/generic.c) on a heap of states, with the generator of C06 and the timers | invariant between the state of each thread and a summary of its own calls, over all interleavings |
| C230 | the same with the generator kept by kd-tree forests (vl/kdtree.c 206, 260, 341) | the same invariant if forests stay in their thread; refutation with two threads |
| C231 | the blocks of vl/sift.c 772-957, 1151-1560 | heap invariant over all histories; compaction of the keypoints by induction |
| C232 | the blocks of vl/hog.c 174-355, 538-1071 | heap invariant over all histories |
| C233, C234 | vl/svmdataset.c 104-403 on the heap | heap invariant over all histories; refutation for a failing request |
| C235 | the choice of versions in vl/mathop.c 472-550, vl/gmm.c 1096-1146, vl/imopv.c 133-143 | induction over the history of calls, on the flags of C227; refutation for AVX without the operating system |
| C236 | the scratch blocks of vl/imopv.c 328-445, 510-592, 620-679 and vl/slic.c 169-411 on the heap | heap invariant over all sequences of calls; refutation with an image without rows |
| C237, C238 | the blocks of vl/liop.c 320-560 and vl/quickshift.c 229-465 | heap invariant over all sequences of patches and runs |
| C239 | change of axes for orientations, vl/covdet.c 2709-2763, 2839-2845, 2881-2902 | from the decomposition of `vl_svd2` and the addition formulas |

All the rows above are done; the status and the theorem names are in `MANIFEST.json`, the axioms of each theorem in
`AXIOMS.md`.  Every claim with status `partial` is one that the code does not meet: the manifest names the theorem that
refutes it (`…_claim_false`) and the theorems that say what does hold.

## What is modelled

Line ranges are cited at each definition.  Per file:

| file | modelled | not modelled |
|------|----------|--------------|
| vl/aib.c | whole file | verbose output |
| vl/array.c | element count, constructors' sizes | — |
| vl/covdet.c | buffers, list of features, reset, responses, suppression, search, refinement, edge score, dropping, patches, choice of level, octaves, orientations, Laplacian scales, affine adaptation, tables of `vl_covdet_new` | smoothing of patches, parameters |
| vl/dsift.c/.h | all: geometry, keypoint enumeration, gradients, kernels, convolutions, normalisation, transposition, life of the buffers | rounding |
| vl/fisher.c, vl/vlad.c | encoding and flags | SIMD, double/float instances are one generic model |
| vl/generic.c | type table, random/thread state, lock, error reporting, allocators' dispatch, printing of the configuration, random numbers and timers of threads | number of processors |
| vl/getopt_long.c | whole parser | — |
| vl/gmm.c | posteriors, maximisation, priors, covariance bounds, expectation maximisation loop, initialisation by random data and by k-means, repetitions, allocation and release of all blocks, copying | messages |
| vl/heap-def.h, qsort-def.h, shuffle-def.h | whole files | — |
| vl/hikmeans.c | training of the tree, push, creation and deletion | — |
| vl/hog.c | grids, accumulation (both variants), extraction, permutation, glyphs, rendering | — |
| vl/homkermap.c | construction and evaluation | — |
| vl/host.c | byte order functions (host.h), processor detection, text of the processor | text of the static configuration (a parameter) |
| vl/ikmeans*.c/.tc | initialisation, seeding, Lloyd and Elkan training, push | — |
| vl/imopv.c | integral image, column convolution, triangular filter, distance transform, smoothing, gradients | — |
| vl/kdtree.c | construction and queries (exact and bounded), parallel queries, list of searchers, release of all blocks | — |
| vl/kmeans.c | seeding, Lloyd, Elkan, repetitions, copying, quantisation, exact and with kd-trees, refinement with kd-trees | — |
| vl/lbp.c, vl/liop.c | whole files | — |
| vl/mathop.c/.h | Gaussian elimination, integer square root, all pairs, vector comparisons, fast elementary functions, 2 × 2 singular values | eigen decomposition, rounding except in mod_2pi |
| vl/mathop_sse2.c, vl/mathop_avx.c | all comparisons, weighted means and variances, dispatch | rounding |
| vl/imopv_sse2.c | column convolution | rounding |
| vl/mser.c | whole file | — |
| vl/pgm.c | all functions | failure of allocations; `vl_set_last_error` texts |
| vl/quickshift.c | density, links, medoid shift | — |
| vl/random.c/.h | whole files | — |
| vl/rodrigues.c | both functions and their derivatives | — |
| vl/scalespace.c | geometry, buffers, octave filling, allocation, copying | — |
| vl/sift.c | octaves, scale space with the kept filter, detection, refinement, gradients, orientations, descriptors | rounding |
| vl/slic.c | whole file | — |
| vl/stringop.c | whole file | — |
| vl/svm.c, svmdataset.c | losses, dual updates, both solvers, statistics, data sets | — |
| toolbox/ | vl_erfill, vl_ubcmatch, ihashsum, ihashfind, inthist, sampleinthist, binsearch, cummax, vl_binsum, vl_localmax, vl_imdisttf, vl_imwbackwardmx, vl_aibhist, vl_hikmeans, vl_hikmeanspush, vl_sift, vl_alldist2, vl_imsmooth, kdtree.h (vl_kdtreebuild, vl_kdtreequery), vl_tpfp.m, vl_roc.m, vl_pr.m | Matlab argument handling and the other wrappers |

`src/` is not modelled.
