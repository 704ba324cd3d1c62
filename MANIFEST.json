{
 "claims": [
  {
   "property": "C01",
   "status": "proved",
   "theorems": [
    "Verif.C01_no_panic",
    "Verif.C01_palette_size",
    "Verif.C01_remap_keeps_size"
   ],
   "note": "Any float arithmetic, every caller history (settings, images, histograms, previous remaps). A capacity panic would be an explicit failure of the model and is excluded."
  },
  {
   "property": "C02",
   "status": "proved",
   "theorems": [
    "Verif.C02_indices_valid"
   ],
   "note": "Any float arithmetic, every result and image a caller can make, every schedule and every content of uninitialised memory."
  },
  {
   "property": "C03",
   "status": "proved",
   "theorems": [
    "Verif.C03_buffer",
    "Verif.C03_remapped"
   ],
   "note": "Any float arithmetic, every result and image a caller can make. Also says that bytes past width*height survive failed remaps."
  },
  {
   "property": "C04",
   "status": "proved",
   "theorems": [
    "Verif.C04_nearest",
    "Verif.C04_nearest_rounded",
    "Verif.C04_search",
    "Verif.C04_search_rounded"
   ],
   "note": "Exact reals. C04_search: every palette of 1..256 entries, colour and hint. C04_nearest: every byte of a successful undithered remap, against the reported palette and the original 8-bit pixels, for every image and result a caller can make. An invalid hint needs some colour closer than f32::MAX. With rounding errors (FltOrd, gammas from 1/16 to 1): nearest up to 2e-5 for a search and 4e-4 for a whole remap."
  },
  {
   "property": "C05",
   "status": "partial",
   "theorems": [
    "Verif.C05_metric",
    "Verif.C05_visible_bound_fails",
    "Verif.C05_visible_bound_partial"
   ],
   "note": "Metric: fully proved (exact arithmetic). The visible-difference bound is false for backgrounds brighter than 0.625 in green (witness C05_visible_bound_fails); proved for darker backgrounds and, with factor 4.84, for all."
  },
  {
   "property": "C06",
   "status": "proved",
   "theorems": [
    "Verif.C06_color_count",
    "Verif.C06_lossless",
    "Verif.C06_lossless_rounded"
   ],
   "note": "Exact reals. Every history of settings with speed at most 7, posterization 0 and target quality 100; every new image (from pixels or from a deterministic callback) with at most max_colors visible colours; every dithering level, hash order, schedule and CPU count. No progress callback. C06_color_count counts the colours. C06_lossless_rounded proves it with rounding errors (FltOrd) for gammas from 0.45, alphas of 0 or at least 16 and up to 2^28 pixels; there a remap may fail only if the arithmetic has NaN."
  },
  {
   "property": "C07",
   "status": "proved",
   "theorems": [
    "Verif.C07_distinct",
    "Verif.C07_distinct_rounded",
    "Verif.C07_range",
    "Verif.C07_roundtrip",
    "Verif.C07_roundtrip_rounded"
   ],
   "note": "Exact arithmetic; also with rounding errors (FltRound) for gammas from 1/16 to 1."
  },
  {
   "property": "C08",
   "status": "partial",
   "theorems": [
    "Verif.C08_after_remaps",
    "Verif.C08_does_not_hold",
    "Verif.C08_fixed_in_palette",
    "Verif.C08_fixed_reported",
    "Verif.C08_image",
    "Verif.C08_remap_keeps_fixed",
    "Verif.C08_remap_looks_partial",
    "Verif.C08_remap_reports_fixed",
    "Verif.C08_two_images"
   ],
   "note": "Proved for fixed colours added through the histogram (C08_fixed_in_palette, C08_after_remaps) or through one image (C08_image), including any later remapping: any float arithmetic for the internal palette, exact reals for the reported bytes, without posterization. With posterization the entry only looks the same (C08_remap_looks_partial). False when several images carrying fixed colours are added (C08_two_images, C08_does_not_hold): colours are numbered per image, so a colour added earlier can be dropped."
  },
  {
   "property": "C09",
   "status": "partial",
   "theorems": [
    "Verif.C09_does_not_hold",
    "Verif.C09_frozen",
    "Verif.C09_looks_partial",
    "Verif.C09_unseen"
   ],
   "note": "Frozen palette proved for results without posterization (exact arithmetic) and, for any float arithmetic, for results that were remapped with and not looked at before. Missing: with posterization the RGB of fully transparent fixed entries changes (C09_does_not_hold)."
  },
  {
   "property": "C10",
   "status": "proved",
   "theorems": [
    "Verif.C10_default_order",
    "Verif.C10_last_transparent",
    "Verif.C10_result_sorted",
    "Verif.C10_sort_permutes"
   ],
   "note": "Any float arithmetic for permutation and order keys; exact for the order of reals."
  },
  {
   "property": "C11",
   "status": "partial",
   "theorems": [
    "Verif.C11_does_not_hold",
    "Verif.C11_limit_checked",
    "Verif.C11_minimum_quality_counted_partial",
    "Verif.C11_minimum_quality_partial",
    "Verif.C11_minimum_quality_rounded_partial",
    "Verif.C11_single_break_skips_check",
    "Verif.C11_too_low_only_with_limit",
    "Verif.C11_weightless"
   ],
   "note": "Proved in exact arithmetic, and in rounded arithmetic if the error of the result is a number. C11_weightless and C11_does_not_hold prove that with IEEE rules for zeros and NaN a histogram of fixed colours only succeeds with error NaN and quality 0 whatever minimum was set. The hypothesis that the callback never breaks is needed: C11_single_break_skips_check. C11_minimum_quality_counted_partial removes the assumption about the error for usual sizes if some colour that is not fixed has a count, at speeds 5 to 10 and at speed 4 (the default) with counts that add up to at most 2^28."
  },
  {
   "property": "C12",
   "status": "proved",
   "theorems": [
    "Verif.C12_limit_decreasing",
    "Verif.C12_limit_rounded",
    "Verif.C12_quality_antitone",
    "Verif.C12_quality_of_error",
    "Verif.C12_quality_of_error_rounded",
    "Verif.C12_quality_roundtrip",
    "Verif.C12_quality_roundtrip_rounded"
   ],
   "note": "Exact arithmetic, where the gap between neighbouring limits is at least 10 times the tolerance; also with rounding errors (FltRound)."
  },
  {
   "property": "C13",
   "status": "proved",
   "theorems": [
    "Verif.C13_call_refines",
    "Verif.C13_settings_registers",
    "Verif.C13_settings_registers_any_float",
    "Verif.C13_settings_registers_rounded"
   ],
   "note": "Refinement to a register file over all call histories; integer registers for any float arithmetic, quality() in exact arithmetic and with rounding errors (FltRound)."
  },
  {
   "property": "C14",
   "status": "proved",
   "theorems": [
    "Verif.C14_aborted_only_on_break",
    "Verif.C14_no_callback",
    "Verif.C14_persistent_break"
   ],
   "note": "Any float arithmetic."
  },
  {
   "property": "C15",
   "status": "proved",
   "theorems": [
    "Verif.C15_quantize_progress",
    "Verif.C15_quantize_progress_rounded",
    "Verif.C15_remap_percent",
    "Verif.C15_remap_percent_rounded"
   ],
   "note": "Exact reals, and arithmetic whose f32 operations are correctly rounded (FltCorrect), for remaps of at most 2^24 rows there. The quantization part covers the whole search; the remapping part every reported value."
  },
  {
   "property": "C16",
   "status": "proved",
   "theorems": [
    "Verif.C16_accepts",
    "Verif.C16_errors",
    "Verif.C16_rows"
   ],
   "note": "Any float. Constructors accept exactly the representable sizes with enough pixels and report the documented errors otherwise; every row of an accepted image is readable."
  },
  {
   "property": "C17",
   "status": "partial",
   "theorems": [
    "Verif.C17_borrowed_partial",
    "Verif.C17_callback_partial",
    "Verif.C17_dangling",
    "Verif.C17_does_not_hold",
    "Verif.C17_owned_partial"
   ],
   "note": "False as stated: the clone of an image that owns its pixels keeps the row pointers of the original, so dropping the original leaves every row of the clone dangling (C17_dangling, for every such image; C17_does_not_hold). Proved over all histories of clone, drop, conversion and release: borrowed images and all their clones; owned images while the original lives; direct clones of callback images."
  },
  {
   "property": "C18",
   "status": "partial",
   "theorems": [
    "Verif.C18_does_not_hold",
    "Verif.C18_freed_once_partial",
    "Verif.C18_kept_partial",
    "Verif.C18_late_rows"
   ],
   "note": "Proved for every finite program of C API calls that keeps the documented rules (own blocks handed over once, live handles), any float arithmetic: each address is freed at most once, only what was handed over is freed and by the right function, everything handed over with an image is freed once that image is gone. Does not hold when LIQ_OWN_ROWS is passed for an image that was already remapped: C18_does_not_hold exhibits a whole program in which every call succeeds, an address that was never allocated is freed, and the caller's array leaks."
  },
  {
   "property": "C19",
   "status": "proved",
   "theorems": [
    "Verif.C19_exact_colours",
    "Verif.C19_from_settings",
    "Verif.C19_order_independent",
    "Verif.C19_weights",
    "Verif.C19_zero_leaves_no_trace"
   ],
   "note": "Any float arithmetic: per-colour weights after any sequence of additions, independence of the order, no trace left by fully zero-weight colours. For a histogram made from any settings the bits ignored are those that the settings say (C19_from_settings)."
  },
  {
   "property": "C20",
   "status": "partial",
   "theorems": [
    "Verif.C20_posterization_loses_weight",
    "Verif.C20_posterization_partial",
    "Verif.C20_witness"
   ],
   "note": "False as stated: raising posterization overwrites colliding keys, so weight is lost (C20_posterization_loses_weight, C20_witness). Proved part: without a collision nothing is lost."
  },
  {
   "property": "C21",
   "status": "proved",
   "theorems": [
    "Verif.C21_dithered",
    "Verif.C21_kmeans_schedule",
    "Verif.C21_quantize",
    "Verif.C21_remap",
    "Verif.C21_remap_bytes"
   ],
   "note": "K-means half in exact reals (C21_kmeans_schedule, C21_quantize for whole quantizations). Remap half: bytes for any float arithmetic (C21_remap_bytes), the whole outcome in exact reals (C21_remap), dithered remaps too if CPUs and memory contents are fixed (C21_dithered)."
  },
  {
   "property": "C22",
   "status": "proved",
   "theorems": [
    "Verif.C22_cpus",
    "Verif.C22_environment",
    "Verif.C22_rows",
    "Verif.C22_single_chunk",
    "Verif.C22_speed_one"
   ],
   "note": "Any float arithmetic for CPU count and memory contents, exact reals also for schedules. C22_rows: each row dithered once, into its place, direction by parity, errors handed on except at chunk boundaries."
  },
  {
   "property": "C23",
   "status": "proved",
   "theorems": [
    "Verif.C23_image",
    "Verif.C23_image_rounded",
    "Verif.C23_range",
    "Verif.C23_row"
   ],
   "note": "Exact arithmetic. C23_range: the colour searched for stays in range for every carried error, level and limit. C23_row: for every row, palette, dither map, background: weights 7/3/5/1 sixteenths, total of all cells grows by exactly the pixel error, no cell exceeds the largest single-pixel error M given that the row starts with at most 9/16 M, which is shown to be what the previous row leaves. C23_image: in whole remaps of arbitrary user images and results (output gamma positive) everything stays within 1.1, including rows dithered from chunk boundaries. With rounding errors: C23_image_rounded (errors at most 1.11, colours wanted within [-0.1001, 1.1001])."
  },
  {
   "property": "C24",
   "status": "proved",
   "theorems": [
    "Verif.C24_background"
   ],
   "note": "Exact reals; the spec refers to the reported palette, the 8-bit pixels and the 8-bit background."
  },
  {
   "property": "C25",
   "status": "proved",
   "theorems": [
    "Verif.C25_groups_nonempty",
    "Verif.C25_partition"
   ],
   "note": "Partition, recorded indices and popularity for any float arithmetic; non-empty groups in exact arithmetic."
  },
  {
   "property": "C26",
   "status": "proved",
   "theorems": [
    "Verif.C26_range",
    "Verif.C26_weighted_mean"
   ],
   "note": "exact reals; any number of k-means passes, every schedule"
  },
  {
   "property": "C27",
   "status": "proved",
   "theorems": [
    "Verif.C27_auto_map",
    "Verif.C27_auto_map_rounded",
    "Verif.C27_every_pixel_counted",
    "Verif.C27_every_pixel_counted_rounded",
    "Verif.C27_user_map",
    "Verif.C27_zero_ignored"
   ],
   "note": "Auto map: exact arithmetic (values at least 80) and with rounding errors (at least 79). Counting of every pixel with a non-zero weight: any float, and with rounding errors for images without a map of their own. A map of the user is accepted exactly if it has one entry for each pixel, and then its zeros are ignored (C27_user_map)."
  },
  {
   "property": "C28",
   "status": "partial",
   "theorems": [
    "Verif.C28_does_not_hold",
    "Verif.C28_map_kept_partial",
    "Verif.C28_overwritten"
   ],
   "note": "The property does not hold: C28_does_not_hold gives a 4x4 witness, C28_overwritten shows the map is always replaced in the remaining cases. C28_map_kept_partial: counting and quantizing always keep the map, remapping keeps it in all other cases."
  },
  {
   "property": "C29",
   "status": "partial",
   "theorems": [
    "Verif.C29_current_partial",
    "Verif.C29_does_not_hold",
    "Verif.C29_remapped_partial",
    "Verif.C29_stale"
   ],
   "note": "Exact arithmetic. Proved for results whose palette was not looked at before the gamma change, and right after every remap. After a look the old gamma is reported (C29_stale, C29_does_not_hold)."
  },
  {
   "property": "C30",
   "status": "partial",
   "theorems": [
    "Verif.C30_add_colors_partial",
    "Verif.C30_dithering_level_partial",
    "Verif.C30_does_not_hold",
    "Verif.C30_fixed_color_unchecked",
    "Verif.C30_image_gamma_partial",
    "Verif.C30_image_new_partial",
    "Verif.C30_output_gamma_nan",
    "Verif.C30_output_gamma_partial"
   ],
   "note": "Floats with NaN and infinities. Proved for dithering level, image gamma and add_colors; set_output_gamma for all but NaN, which is accepted; add_fixed_color checks nothing (C30_does_not_hold)."
  },
  {
   "property": "C31",
   "status": "proved",
   "theorems": [
    "Verif.C31_budgets",
    "Verif.C31_refinement_bounded",
    "Verif.C31_search_bounded"
   ],
   "note": "Any float arithmetic."
  },
  {
   "property": "C32",
   "status": "partial",
   "theorems": [
    "Verif.C32_does_not_hold",
    "Verif.C32_max_colors",
    "Verif.C32_posterization_partial",
    "Verif.C32_quality_partial",
    "Verif.C32_speed",
    "Verif.C32_truncates"
   ],
   "note": "max_colors and speed: proved for every argument (any float). liq_set_quality and liq_set_min_posterization truncate their arguments to 8 bits (C32_truncates, C32_does_not_hold); proved for arguments from 0 to 255."
  },
  {
   "property": "C33",
   "status": "partial",
   "theorems": [
    "Verif.C33_after_destroy",
    "Verif.C33_destroy_null",
    "Verif.C33_destroy_unchecked",
    "Verif.C33_does_not_hold",
    "Verif.C33_output",
    "Verif.C33_output_unwritten",
    "Verif.C33_rejects_partial",
    "Verif.C33_set_background_consumes",
    "Verif.C33_unchecked"
   ],
   "note": "Every function of the C API that checks its handle is covered (C33_rejects_partial); result pointers after a checked call: C33_output. False as stated: liq_image_set_background consumes the background when the image handle is bad, a bad handle leaves the output pointer of liq_image_quantize unwritten, and liq_set_speed, liq_image_create_custom and the destroy functions do not check (C33_does_not_hold)."
  },
  {
   "property": "C34",
   "status": "partial",
   "theorems": [
    "Verif.C34_add_image_unchecked",
    "Verif.C34_histogram_limit",
    "Verif.C34_image_limit"
   ],
   "note": "Histogram::add_fixed_color enforces the limit of 256 (C34_histogram_limit); add_image copies fixed colours without the check (C34_add_image_unchecked is the negation)."
  },
  {
   "property": "C35",
   "status": "proved",
   "theorems": [
    "Verif.C35_blur",
    "Verif.C35_blur_range",
    "Verif.C35_max",
    "Verif.C35_min"
   ],
   "note": "Max/min filters are greatest/least of the plus-shaped neighbourhood; the blur is specified pixel by pixel and keeps values in the range of its input."
  },
  {
   "property": "C36",
   "status": "proved",
   "theorems": [
    "Verif.C36_failed",
    "Verif.C36_succeeded"
   ],
   "note": "Any float arithmetic, every result and image a caller can make."
  },
  {
   "property": "C37",
   "status": "partial",
   "theorems": [
    "Verif.C37_does_not_hold",
    "Verif.C37_initialised_partial",
    "Verif.C37_reads_uninitialised"
   ],
   "note": "The property does not hold: C37_does_not_hold gives a 1x129 witness, C37_reads_uninitialised covers all the remaining cases without a background. C37_initialised_partial: it holds without dithering, without a dither map, with one chunk."
  },
  {
   "property": "C38",
   "status": "partial",
   "theorems": [
    "Verif.C38_does_not_hold",
    "Verif.C38_error",
    "Verif.C38_huge_partial",
    "Verif.C38_mean_partial"
   ],
   "note": "The property does not hold: u32 products wrap. C38_does_not_hold: 65536x65536 is not taken to be huge; at 65537x65537 the reported error is not the mean. C38_error gives the reported error for all sizes; partial theorems for fewer than 2^32 pixels."
  },
  {
   "property": "C39",
   "status": "proved",
   "theorems": [
    "Verif.C39_budget_antitone",
    "Verif.C39_speed_budgets"
   ],
   "note": "Any float arithmetic."
  },
  {
   "property": "C40",
   "status": "partial",
   "theorems": [
    "Verif.C40_palette_partial",
    "Verif.C40_posterize_channel",
    "Verif.C40_posterize_mono",
    "Verif.C40_reported_partial",
    "Verif.C40_transparent_not_posterized"
   ],
   "note": "Channel mapping proved. The whole-palette claim is false for the constant written for transparent entries, (71,112,76,0); proved for the other entries. C40_reported_partial says it for every palette reported after any calls on a result, with the setting that was accepted last."
  },
  {
   "property": "C41",
   "status": "partial",
   "theorems": [
    "Verif.C41_fixed_posterized_not_canonical",
    "Verif.C41_reported_partial",
    "Verif.C41_transparent_partial",
    "Verif.C41_transparent_pixels_equal"
   ],
   "note": "The claim is false for posterized fixed entries (C41_fixed_posterized_not_canonical); proved without posterization. C41_reported_partial says it for every palette reported after any calls on a result."
  },
  {
   "property": "C42",
   "status": "proved",
   "theorems": [
    "Verif.C42_nonempty_outcome",
    "Verif.C42_succeeds",
    "Verif.C42_unsupported_iff_empty",
    "Verif.C42_zero_importance_empty"
   ],
   "note": "Any float arithmetic."
  },
  {
   "property": "C43",
   "status": "proved",
   "theorems": [
    "Verif.C43_add_colors",
    "Verif.C43_first_gamma"
   ],
   "note": "add_colors: empty input, gamma adoption and weights."
  },
  {
   "property": "C44",
   "status": "proved",
   "theorems": [
    "Verif.C44_clusters",
    "Verif.C44_weights"
   ],
   "note": "Any float: every histogram entry is in exactly one cluster; exact reals: the total is the sum of the weights."
  },
  {
   "property": "C45",
   "status": "proved",
   "theorems": [
    "Verif.C45_level_zero",
    "Verif.C45_own_colour",
    "Verif.C45_own_colour_rounded",
    "Verif.C45_reported",
    "Verif.C45_strength_zero"
   ],
   "note": "Exact reals. Every image without background whose pixels are all palette colours and whose gamma equals the output gamma, every level, schedule, CPU count. C45_reported states it for the palette the user sees; level 0 gives nearest colours (C45_level_zero) and the dithering code itself does so at strength 0 (C45_strength_zero). C45_own_colour_rounded proves it with rounding errors (FltOrd) under the limits named for C06."
  },
  {
   "property": "C46",
   "status": "proved",
   "theorems": [
    "Verif.C46_background",
    "Verif.C46_importance_map"
   ],
   "note": "Any float."
  },
  {
   "property": "C47",
   "status": "proved",
   "theorems": [
    "Verif.C47_exact_hit",
    "Verif.C47_tree_exhaustive"
   ],
   "note": "Structure for any float arithmetic, exact hit in exact arithmetic."
  },
  {
   "property": "C48",
   "status": "proved",
   "theorems": [
    "Verif.C48_outcomes",
    "Verif.C48_outcomes_rounded",
    "Verif.C48_quantized_rounded",
    "Verif.C48_succeeds",
    "Verif.C48_used_rounded"
   ],
   "note": "Any float arithmetic. With rounding (usual gamma, fewer than 2^32 pixels, finite palette if it dithers): success or abort only (C48_outcomes_rounded); what was quantized at speed 5 or above, or at speed 4 (the default) with counts that add up to at most 2^28 and a count, can be remapped (C48_quantized_rounded), after any use as well (C48_used_rounded)."
  },
  {
   "property": "C49",
   "status": "proved",
   "theorems": [
    "Verif.C49_image",
    "Verif.C49_mixtures"
   ],
   "note": "Exact arithmetic. For histograms filled from images, counted colours and fixed colours (also by failed additions). Not for a histogram quantized again after it was re-keyed: a histogram that holds only fixed colours has zero counts then."
  },
  {
   "property": "C50",
   "status": "proved",
   "theorems": [
    "Verif.C50_box",
    "Verif.C50_box_exact"
   ],
   "note": "Exact arithmetic, one gamma throughout."
  },
  {
   "property": "C51",
   "status": "proved",
   "theorems": [
    "Verif.C51_alpha",
    "Verif.C51_opaque"
   ],
   "note": "Exact arithmetic, any gammas."
  },
  {
   "property": "C52",
   "status": "proved",
   "theorems": [
    "Verif.C52_grey"
   ],
   "note": "Exact arithmetic, any gammas. Fully transparent entries are reported as (71,112,76,0), which is why visible colours are compared."
  },
  {
   "property": "C53",
   "status": "partial",
   "theorems": [
    "Verif.C53_does_not_hold",
    "Verif.C53_error_partial"
   ],
   "note": "Exact arithmetic. Proved for histograms in which no fixed colour occurs twice; C53_does_not_hold proves that a fixed colour added twice displaces another colour of the histogram while error 0 and quality 100 are reported."
  },
  {
   "property": "C54",
   "status": "proved",
   "theorems": [
    "Verif.C54_best_trial"
   ],
   "note": "Exact arithmetic. The errors are those that the trial's k-means pass returned; passes with weight adjustment measure them at mirrored colours (DESIGN.md)."
  },
  {
   "property": "C55",
   "status": "proved",
   "theorems": [
    "Verif.C55_all_versions",
    "Verif.C55_sse"
   ],
   "note": "Any-float for x86-64 (hypothesis: the two maximum instructions agree on the three pairs of squares, true unless NaN), exact for all versions. Intrinsics are modelled by their lane-wise meaning."
  },
  {
   "property": "C56",
   "status": "proved",
   "theorems": [
    "Verif.C56_fixed_colors",
    "Verif.C56_map_keys"
   ],
   "note": "Bit-level, both byte orders. How HashMap spreads hashes over buckets is not modelled."
  },
  {
   "property": "C57",
   "status": "proved",
   "theorems": [
    "Verif.C57_every_trial",
    "Verif.C57_greedy"
   ],
   "note": "Exact arithmetic. The channel order is only as fine as the 16-bit sort key with an overlapping bit (Spec.tick = 2/65535; DESIGN.md)."
  },
  {
   "property": "C58",
   "status": "proved",
   "theorems": [
    "Verif.C58_no_panic",
    "Verif.C58_palette",
    "Verif.C58_palette_limit",
    "Verif.C58_quality",
    "Verif.C58_remap",
    "Verif.C58_remap_fails"
   ],
   "note": "Any float arithmetic with the sign laws of FltSign. What the program has to respect is Spec.Lawful: exactly the conditions that the library does not check. Ownership of memory is C18."
  },
  {
   "property": "C59",
   "status": "proved",
   "theorems": [
    "Verif.C59_attr_copy",
    "Verif.C59_create_custom",
    "Verif.C59_dithering_level",
    "Verif.C59_frame",
    "Verif.C59_frame_run",
    "Verif.C59_output_gamma",
    "Verif.C59_progress"
   ],
   "note": "Frame and copies: any float. Ranges of the setters and of image creation: exact arithmetic. liq_get_palette counts as a change of its result, because it caches."
  },
  {
   "property": "C60",
   "status": "proved",
   "theorems": [
    "Verif.C60_chunks",
    "Verif.C60_floyd_steinberg",
    "Verif.C60_floyd_steinberg_rounded",
    "Verif.C60_unique"
   ],
   "note": "Exact arithmetic. The specification (Spec/Floyd.lean) has no buffers: what a pixel receives is a sum over its neighbours, and C60_unique shows that it determines all errors and colours wanted. In front of a background the byte may be another colour that is nearer to the undithered pixel (Spec.InFront says when); how often that may happen in a row is left open. The strength comes from the dither map (or the edges) that the image has after the remap; how the map was made is left open. C60_floyd_steinberg_rounded: the same with rounding errors, up to 10^-4 per step of the diffusion (compared with the errors really made at the neighbours, so that nothing accumulates) and 5*10^-4 in distances."
  },
  {
   "property": "C61",
   "status": "proved",
   "theorems": [
    "Verif.C61_pass"
   ],
   "note": "Exact arithmetic. Hypotheses: weights are not negative, and each search hint is an index of the palette or some entry is not astronomically far. The specification is relational where colours tie."
  },
  {
   "property": "C62",
   "status": "proved",
   "theorems": [
    "Verif.C62_kept",
    "Verif.C62_refined",
    "Verif.C62_unused"
   ],
   "note": "Exact arithmetic. Which nearest colour a pixel goes to is left open where several are equally near. Images of more than 2000 x 2000 pixels are left open unless dither maps are always made (the product wraps at 2^32 there)."
  },
  {
   "property": "C63",
   "status": "proved",
   "theorems": [
    "Verif.C63_kept",
    "Verif.C63_map",
    "Verif.C63_unique"
   ],
   "note": "Exact arithmetic. The specification is by runs (Spec/DitherMap.lean); C63_unique shows that it determines every value. Two oddities of the code are part of it: the pixel that ends a run is dimmed with it, and column 0 ends no run."
  },
  {
   "property": "C64",
   "status": "proved",
   "theorems": [
    "Verif.C64_flat",
    "Verif.C64_maps",
    "Verif.C64_unique"
   ],
   "note": "Exact arithmetic. The specification (Spec/Contrast.lean) is in terms of neighbourhoods; C64_unique shows that it determines both maps."
  },
  {
   "property": "C65",
   "status": "proved",
   "theorems": [
    "Verif.C65_error",
    "Verif.C65_fresh",
    "Verif.C65_remapped",
    "Verif.C65_unique"
   ],
   "note": "Exact arithmetic. C62 says which palette is rounded after a dithered remap; C29 is about changes of the output gamma."
  },
  {
   "property": "C66",
   "status": "partial",
   "theorems": [
    "Verif.C66_does_not_hold",
    "Verif.C66_large_buffer_panics",
    "Verif.C66_nothing",
    "Verif.C66_outcomes",
    "Verif.C66_prepared_partial",
    "Verif.C66_refines"
   ],
   "note": "The property does not hold: the call refines the palette of the result itself, so that an undithered remap reports another palette (C66_does_not_hold, C66_refines), and the error reported later is that of the palette. Proved for any float arithmetic: for dithered remaps of images of at least 4 x 4 pixels in front of a background, reported palette and dither map are those of a remap without the call; possible outcomes; with a buffer that has room for another row, which remap_into accepts, the call panics (C66_large_buffer_panics). Missing: equal bytes (the error bound of dithering differs), images without contrast maps, undithered remaps."
  },
  {
   "property": "C67",
   "status": "partial",
   "theorems": [
    "Verif.C67_again_partial",
    "Verif.C67_does_not_hold",
    "Verif.C67_other_images"
   ],
   "note": "The property does not hold: a dithered remap leaves a dither map in the image, so that the next one does not refine the palette and may show another one (C67_does_not_hold, exact arithmetic). Proved for any float arithmetic: earlier remaps of any images with the same result have no influence, provided the image is not one that they changed; remaps of the image itself have none unless they made a dither map for it; what the buffer contained has none. Missing: images that got a dither map in between."
  },
  {
   "property": "C68",
   "status": "partial",
   "theorems": [
    "Verif.C68_after_remap",
    "Verif.C68_does_not_hold",
    "Verif.C68_plain_partial",
    "Verif.C68_reports"
   ],
   "note": "The property does not hold: palette() replaces the stored palette by the rounded one, so that a colour that is black with the output gamma of the moment stays black when the gamma is set back (C68_does_not_hold, exact arithmetic). Proved for any float arithmetic: what palette() and the getters return does not change; after a successful remap nothing changes. Exact arithmetic: undithered remaps with the same output gamma give the same bytes, error and palette (hidden channels of fully transparent colours only without posterization). Missing: dithered remaps, changes of the output gamma in between."
  },
  {
   "property": "C69",
   "status": "proved",
   "theorems": [
    "Verif.C69_picture_kept",
    "Verif.C69_picture_kept_rounded",
    "Verif.C69_same_settings"
   ],
   "note": "Exact reals: every result, image, background, gamma, dithering level and history of the first remap (C69_picture_kept), and with the settings of the first time the limit on colours is met (C69_same_settings). Speed at most 7, posterization 0 and target quality 100 the second time, as for C06. C69_picture_kept_rounded proves it with rounding errors (FltOrd) if the pixels of the picture are fully transparent or have an alpha of at least 16, for gammas from 0.45 and up to 2^28 pixels; there the second remap may fail only if the arithmetic has NaN."
  },
  {
   "property": "C70",
   "status": "partial",
   "theorems": [
    "Verif.C70_does_not_hold",
    "Verif.C70_only_fixed",
    "Verif.C70_same_fast_partial",
    "Verif.C70_same_partial",
    "Verif.C70_same_rounded_partial",
    "Verif.C70_structure_any_float"
   ],
   "note": "The property does not hold: if only fixed colours are left (pixels of a fixed colour do not count), all the weights are 0 and an assertion of median cut fails, unless all the colours fit in the palette and quality 100 is asked for (C70_does_not_hold, C70_only_fixed: exactly these cases without a callback). Proved in exact arithmetic: in all other cases a debug build does what a release build does (C70_same_partial); assertions that values are finite hold by nature there. Proved for arithmetic that rounds and overflows: the same if the search takes at most eleven rounds (speed 5 and above), with at most 2^21 colours, counts that add up to at most 2^35 and a gamma from 1/16 to 1 (C70_same_rounded_partial, C70_same_fast_partial), and at speed 4 (the default) with counts that add up to at most 2^28 if some colour has a count (C70_same_fast_partial): numbers are finite, weights positive, errors below MAX_DIFF. Proved for any float arithmetic: the assertions about structure never fail and the filling of unwritten items does not show (C70_structure_any_float). Assertions of remapping and of row access are C73; overflow checks of integers are C71."
  },
  {
   "property": "C71",
   "status": "proved",
   "theorems": [
    "Verif.C71_constructors_any_float",
    "Verif.C71_histogram_any_float",
    "Verif.C71_importance_map_any_float",
    "Verif.C71_operations",
    "Verif.C71_overflows",
    "Verif.C71_palette_any_float",
    "Verif.C71_pixel_count_any_float",
    "Verif.C71_pixel_count_plain_any_float",
    "Verif.C71_quantize_any_float",
    "Verif.C71_remap_any_float",
    "Verif.C71_set_speed_any_float",
    "Verif.C71_sizes"
   ],
   "note": "For any float arithmetic. Model/Machine repeats the functions with every integer operation in its type; the theorems say that the result is that of the models with unbounded integers, which the other properties are about. Not repeated: arithmetic that computes an index into a slice that is checked anyway, sums of blur.rs (checked in Model/Blur), memory addresses. The exception is proved both ways: C71_remap_any_float for fewer than 2^32 pixels, C71_pixel_count_any_float (dithered), C71_pixel_count_plain_any_float (not dithered) and C71_overflows for more (C38 says what a release build reports then)."
  },
  {
   "property": "C72",
   "status": "proved",
   "theorems": [
    "Verif.C72_bytes_any_float",
    "Verif.C72_kmeans_any_float",
    "Verif.C72_one_chunk",
    "Verif.C72_quantize",
    "Verif.C72_remap",
    "Verif.C72_remap_to_palette_any_float"
   ],
   "note": "Model/Rayoff has the two parallel loops as rayoff.rs runs them, item by item on one thread. For any float arithmetic they are the parallel loops with a single worker (C72_kmeans_any_float, C72_remap_to_palette_any_float), dithering is one chunk (C72_one_chunk), and the bytes of undithered remaps are the same (C72_bytes_any_float). In exact arithmetic the whole outcome of quantization and of remaps is the same (C72_quantize, C72_remap); with rounding the order of additions may show in the last bits."
  },
  {
   "property": "C73",
   "status": "partial",
   "theorems": [
    "Verif.C73_add_image",
    "Verif.C73_add_image_any_float",
    "Verif.C73_add_image_rounded",
    "Verif.C73_does_not_hold",
    "Verif.C73_nan_gamma",
    "Verif.C73_new",
    "Verif.C73_new_any_float",
    "Verif.C73_new_rounded",
    "Verif.C73_palette_any_float",
    "Verif.C73_remap_any_float",
    "Verif.C73_same_partial",
    "Verif.C73_same_rounded_partial"
   ],
   "note": "The property does not hold: set_output_gamma accepts NaN, after which the assertion of gamma_lut that gamma is positive fails, so remap and palette() panic in a debug build and do not in a release build (C73_nan_gamma for every arithmetic with NaN, C73_does_not_hold with a witness). Proved for any float arithmetic: all assertions about lengths and temporary buffers hold (C73_new_any_float, C73_add_image_any_float, C73_remap_any_float, C73_palette_any_float). Proved in exact arithmetic: with all the assertions, including those about floats, every call does what the release build does (C73_new, C73_add_image, C73_same_partial). Proved for arithmetic that rounds and overflows: making images (C73_new_rounded), adding images with a gamma from 1/16 to 1 (C73_add_image_rounded), and remapping and palette() for results of quantization at speed 5 and above or speed 4 (the default) with counts that add up to at most 2^28 and a count, sizes and gammas as in C77, after any use (C73_same_rounded_partial). Assertions about raw pointers are not modelled."
  },
  {
   "property": "C74",
   "status": "proved",
   "theorems": [
    "Verif.C74_messages_change_nothing",
    "Verif.C74_no_callback",
    "Verif.C74_transcript",
    "Verif.C74_transcript_exact"
   ],
   "note": "Model/Log has the functions with their messages as values (what is formatted into them is kept, the wording is not). For any float arithmetic: leaving out the messages gives exactly the functions of the other properties (C74_messages_change_nothing), nothing is printed without a callback (C74_no_callback), and the messages are a transcript in the stated order (C74_transcript). In exact arithmetic also the numbers in the messages: percentages, qualities, counts of transparent entries (C74_transcript_exact)."
  },
  {
   "property": "C75",
   "status": "partial",
   "theorems": [
    "Verif.C75_buffer_short_fails",
    "Verif.C75_callback_messages_partial",
    "Verif.C75_conserving_fails",
    "Verif.C75_gamma",
    "Verif.C75_image_messages_partial",
    "Verif.C75_messages_change_nothing",
    "Verif.C75_quality_low"
   ],
   "note": "The property does not hold. At speeds 8 to 10 memory is said to be conserved for images of 524289 to 4194304 pixels, but their pixels are kept (C75_conserving_fails). If width, height or stride is rejected, the buffer is said to be too short even if it is not (C75_buffer_short_fails). Proved: messages change nothing, the message about quality and (exact) about gamma are exact, and all the rest of the property (C75_image_messages_partial, C75_callback_messages_partial)."
  },
  {
   "property": "C76",
   "status": "proved",
   "theorems": [
    "Verif.C76_calls",
    "Verif.C76_flushed"
   ],
   "note": "Any sequence of uses of one Attributes object; what comes after each message is given in full (C76_flushed), and every call with its cause (C76_calls). Clones of settings and the C wrappers around the callbacks are not modelled."
  },
  {
   "property": "C77",
   "status": "partial",
   "theorems": [
    "Verif.C77_does_not_hold",
    "Verif.C77_finite_fast_partial",
    "Verif.C77_finite_partial",
    "Verif.C77_remap_error",
    "Verif.C77_used_counted_partial",
    "Verif.C77_used_partial"
   ],
   "note": "The property does not hold: if all colours with a count are fixed, the error of the palette is NaN (C77_does_not_hold). Proved with rounding for the palette, and for the error if some colour that is not fixed has a count, for up to 2^21 colours, counts that add up to at most 2^35, gamma between 1/16 and 1, and at most eleven rounds of search, which covers speeds 5 to 10 (C77_finite_partial, C77_finite_fast_partial). Also at speed 4 (the default) with counts that add up to at most 2^28, if some colour has a count (C77_finite_fast_partial): there averages stay near the colours, the difference of a mirrored colour is below 7.35 and weights grow by a factor of at most 15.71 in a round for up to 50000 colours; above that there are at most nine rounds. Missing: speeds 1 to 3, where the bound on how much the weights grow is too coarse for f32, and speed 4 for larger counts. The error that a remap measures is finite and at most 100 (C77_remap_error). Palettes stay finite in any later use, remapping included (C77_used_partial, C77_used_counted_partial)."
  },
  {
   "property": "C78",
   "status": "partial",
   "theorems": [
    "Verif.C78_average_does_not_hold",
    "Verif.C78_opaque_partial",
    "Verif.C78_used_partial"
   ],
   "note": "Exact counterpart: C51. Proved with rounding for the palette after quantization with any output gamma (C78_opaque_partial) and after any later use, remaps of opaque images with or without dithering included (C78_used_partial). The restrictions are those of the property as stated and sizes as in C77 (counts that add up to at most 2^35, gamma between 1/16 and 1, images below 2^32 pixels); speeds 1 to 3, speed 4 with counts above 2^28, and more than 2^14 colours are missing. That a limit on the number of colours is needed at least for the average of a box is C78_average_does_not_hold: with rounding to nearest, 65537 opaque colours, one of them heavy, average to alpha 254."
  },
  {
   "property": "C79",
   "status": "partial",
   "theorems": [
    "Verif.C79_add_image",
    "Verif.C79_add_image_again_partial",
    "Verif.C79_again_false",
    "Verif.C79_quantize",
    "Verif.C79_quantize_again",
    "Verif.C79_quantize_image",
    "Verif.C79_quantize_image_again_fresh_partial",
    "Verif.C79_quantize_image_again_partial",
    "Verif.C79_spoiled"
   ],
   "note": "The outcome is proved for add_image and for both ways of quantizing (C79_add_image, C79_quantize, C79_quantize_image), the second try for histograms (C79_quantize_again) and for images whose maps are not computed, or computed with the first of five requests or none refused (C79_add_image_again_partial, C79_quantize_image_again_partial, C79_quantize_image_again_fresh_partial). It is not true of other images: contrast_maps attaches a map of zeros to the image before it computes it, so if a later request is refused the image can never be quantized again (C79_spoiled, C79_again_false). Requests that are not fallible in the code (hash maps, small vectors, boxes) abort the process in Rust and are not modelled."
  },
  {
   "property": "C80",
   "status": "partial",
   "theorems": [
    "Verif.C80_again_false",
    "Verif.C80_again_partial",
    "Verif.C80_image",
    "Verif.C80_remap_into",
    "Verif.C80_remapped_false",
    "Verif.C80_remapped_partial"
   ],
   "note": "The outcome, the result and the pixels are proved for remap_into for any float arithmetic (C80_remap_into, C80_image). The second try is proved for images that are not dithered, or for which no dither map is made (C80_again_partial); it is not true of others: memory may run out after the dither map was made, and then the next remap does not refine the palette (C80_again_false, exact arithmetic). remapped() reports every refusal except that of the palette (C80_remapped_partial); then it succeeds without a palette, because palette_vec drops the failure (C80_remapped_false: this may happen to every remap that succeeds). Not modelled: which rows of the buffer are written before workers run out of memory."
  },
  {
   "property": "C81",
   "status": "proved",
   "theorems": [
    "Verif.C81_accepted",
    "Verif.C81_clone",
    "Verif.C81_same_pixels"
   ],
   "note": "Proved for any float arithmetic for sequences of calls of any length (C81_same_pixels); cloning succeeds (C81_clone), and a buffer that has all the pixels is accepted exactly if a callback is (C81_accepted). The memory behind row pointers is taken to stay valid; C17 shows what happens otherwise. Allocation failure is not modelled here. A callback is a function of row and column, called with the whole row; callbacks that answer differently when called again are out of scope. The hidden function of C66 is not among the calls: given a buffer with more rows than the image it asks a callback for rows that do not exist."
  }
 ]
}