{"id": "C01", "title": "Palette size stays within the requested limit", "statement": "Whenever quantize() (of an image or of a Histogram) succeeds, the palette it reports has at least one entry and at most max_colors() entries (never more than 256), and remapping any image with that result never changes the number of entries; no ArrayVec capacity panic can occur on the way.", "quantifier": "every histogram / image, every settings combination, every fixed-colour list, every outcome of the float arithmetic, every hash iteration order, every thread schedule and every progress-callback behaviour", "why_tests_cant": "The length is produced by an adaptive feedback loop (median cut, fixed colours, k-means) whose trip count depends on float comparisons; tests sample a few images.", "anchors": ["src/quant.rs:find_best_palette", "src/mediancut.rs:MedianCutter::cut", "src/pal.rs:PalF::with_fixed_colors", "src/attr.rs:Attributes::set_max_colors"]}
{"id": "C02", "title": "Every remapped byte is a valid palette index", "statement": "After a successful remap (remapped, remap_into, remap_into_vec, liq_write_remapped_image*), every byte written is smaller than the length of the palette reported for that remap, with or without dithering, background and importance map, even when the search hints are garbage.", "quantifier": "every image size and content, palette of 1..256 entries, dithering level, background, dither map, number of CPUs, schedule, and every behaviour of the float arithmetic (including NaN)", "why_tests_cant": "A single out-of-range index needs a particular combination of ties/NaN/hints; tests cannot enumerate float inputs or stale hint bytes.", "anchors": ["src/remap.rs:remap_to_palette", "src/remap.rs:remap_to_palette_floyd", "src/remap.rs:dither_row", "src/nearest.rs:Nearest::search"]}
{"id": "C03", "title": "Remapping writes exactly width*height bytes", "statement": "A successful remap_into initialises each of the first width*height bytes of the caller's buffer and leaves every later byte untouched; a buffer shorter than width*height is rejected with BufferTooSmall and nothing is written; remapped()/remap_into_vec return a vector of exactly width*height bytes.", "quantifier": "every image size, buffer length, dithering level, chunk count and row order", "why_tests_cant": "The buffer is MaybeUninit and rows are written by parallel chunks in alternating directions; missing one cell is invisible to a test that happens to see zeroed memory.", "anchors": ["src/quant.rs:remap_into", "src/quant.rs:remap_into_vec", "src/remap.rs:dither_row", "src/seacow.rs:RowBitmapMut"]}
{"id": "C04", "title": "Undithered remapping picks the nearest palette colour", "statement": "With dithering level 0 and no background, each output byte names a palette entry whose colour difference to the pixel is minimal over the whole palette, whatever hint the search started from.", "quantifier": "every palette (1..256 entries, duplicates allowed), every pixel colour, every hint index (valid or not)", "why_tests_cant": "Correctness of the vantage-point-tree pruning is a statement about all palettes and all query points; a wrong prune shows only for rare geometry.", "anchors": ["src/nearest.rs:vp_create_node", "src/nearest.rs:vp_search_node", "src/nearest.rs:Nearest::search", "src/remap.rs:remap_to_palette"]}
{"id": "C05", "title": "Colour difference is a metric that bounds visible difference on any background", "statement": "The square root of the library's colour difference is symmetric, zero only for equal colours, satisfies the triangle inequality, and the difference is an upper bound for the squared difference of the two colours composited over any background between black and white.", "quantifier": "all triples of colours", "why_tests_cant": "The triangle inequality is the premise of the index structure and of the early-exit rule; it quantifies over all triples of real colours.", "anchors": ["src/pal.rs:f_pixel::diff"]}
{"id": "C06", "title": "Images with few colours are reproduced losslessly", "statement": "If an image has no more distinct colours than max_colors, with default quality, posterization 0 and speed 7 or slower, then quantize + remapped succeeds and replacing each output byte by its palette entry reproduces every pixel exactly (all fully transparent pixels are equivalent), for any dithering level.", "quantifier": "every image size and content with at most max_colors distinct colours, every max_colors, speed 1..7, dithering level, schedule and hash order", "why_tests_cant": "It is an end-to-end statement over all images; each stage (contrast map, histogram, palette, rounding, search, dithering) could lose a colour in a rare case.", "anchors": ["src/quant.rs:palette_from_histogram", "src/hist.rs:add_pixel_rows", "src/pal.rs:init_int_palette", "src/remap.rs", "src/image.rs:contrast_maps"]}
{"id": "C07", "title": "8-bit colour conversion round-trips", "statement": "Converting any 8-bit RGBA colour with non-zero alpha to the internal gamma-corrected premultiplied form and back with the same gamma returns the same colour; alpha 0 returns transparent black; distinct visible colours stay distinct internally.", "quantifier": "all 2^32 colours and every gamma accepted by the API", "why_tests_cant": "2^32 colours times a continuum of gammas; and the claim must survive rounding errors of the float pipeline.", "anchors": ["src/pal.rs:f_pixel::from_rgba", "src/pal.rs:f_pixel::to_rgb", "src/pal.rs:gamma_lut"]}
{"id": "C08", "title": "Fixed colours end up in the palette", "statement": "If n fixed colours were added (to the image or the histogram) then after a successful quantize the first min(n, max_colors) of them, in the order they were added, are entries of the palette; k-means refinement and remapping never change them.", "quantifier": "every histogram, every list of fixed colours, every settings combination, schedule, hash order and float behaviour", "why_tests_cant": "Fixed colours pass through median cut, replacement, refinement and sorting; losing one needs a specific popularity/duplicate pattern.", "anchors": ["src/pal.rs:with_fixed_colors", "src/pal.rs:PalPop", "src/kmeans.rs:finalize", "src/kmeans.rs:replace_unused_colors", "src/hist.rs:finalize_builder"]}
{"id": "C09", "title": "Histogram palettes are frozen", "statement": "The palette of a result made by Histogram::quantize is not changed by remapping: after remapping any number of images with it, the reported palette is the one reported before the first remap.", "quantifier": "every histogram result and every sequence of remaps", "why_tests_cant": "Quantifies over sequences of remaps of arbitrary images.", "anchors": ["src/hist.rs:quantize", "src/quant.rs:QuantizationResult::new", "src/kmeans.rs:finalize"]}
{"id": "C10", "title": "Palette order: transparent colours grouped, and transparent last on request", "statement": "By default all non-opaque entries precede all opaque entries and each group is sorted by falling popularity; with set_last_index_transparent(true), if any non-opaque entry exists then the last entry has the lowest alpha of all. Sorting only permutes entries.", "quantifier": "every palette", "why_tests_cant": "All palettes, including ties and all-transparent ones.", "anchors": ["src/quant.rs:sort_palette"]}
{"id": "C11", "title": "Minimum quality is enforced", "statement": "If set_quality(min, target) is in force and quantize succeeds without the progress callback ever asking to stop, then quantization_quality() is known and is at least min; if the error of the final palette is known to exceed the limit, quantize returns QualityTooLow.", "quantifier": "every histogram, settings, speed and arithmetic outcome", "why_tests_cant": "The error is produced by an adaptive loop; whether it is known depends on speed/trial counts.", "anchors": ["src/quant.rs:QuantizationResult::new", "src/attr.rs:target_mse", "src/attr.rs:kmeans_iterations", "src/quant.rs:mse_to_quality"]}
{"id": "C12", "title": "Quality scale is consistent", "statement": "quality() returns exactly the pair given to set_quality for every valid pair; higher quality never corresponds to a larger error; the quality computed from an error is the largest quality whose limit admits that error.", "quantifier": "all 0<=min<=target<=100, all non-negative errors", "why_tests_cant": "Needs all 101 values of a transcendental formula and all real errors, with tolerance for float rounding.", "anchors": ["src/quant.rs:quality_to_mse", "src/quant.rs:mse_to_quality", "src/attr.rs:quality"]}
{"id": "C13", "title": "Settings behave like independent validated registers", "statement": "After any sequence of setter calls each getter returns the last accepted value of its own setting (or the default); a setter accepts exactly its documented range, and a rejected call changes nothing observable.", "quantifier": "every finite sequence of setter calls with arbitrary arguments", "why_tests_cant": "Histories of calls are unbounded; cross-talk appears only for particular sequences.", "anchors": ["src/attr.rs:Attributes"]}
{"id": "C14", "title": "Aborting via the progress callback", "statement": "quantize returns Aborted only if the callback returned Break; if the callback returns Break for some call and for all later ones, quantize fails with an error and no result; with no callback it never returns Aborted.", "quantifier": "every behaviour of the callback (any function of the call history), every image and settings", "why_tests_cant": "All callback behaviours and all points at which it may be called.", "anchors": ["src/attr.rs:progress", "src/hist.rs:add_image", "src/hist.rs:quantize_internal", "src/quant.rs:find_best_palette", "src/quant.rs:refine_palette", "src/quant.rs:QuantizationResult::new"]}
{"id": "C15", "title": "Progress values are percentages", "statement": "Every value passed to the quantization progress callback lies between 0 and 100; within the palette search the values never decrease; every value passed to the remapping callback lies between 0 and 100.", "quantifier": "every speed, trial count, image size and loop history", "why_tests_cant": "Depends on loop counters and per-speed tables over all histories.", "anchors": ["src/attr.rs:set_speed", "src/quant.rs:find_best_palette", "src/quant.rs:refine_palette", "src/remap.rs:remap_to_palette_floyd"]}
{"id": "C16", "title": "Image construction accepts exactly the buffers that fit, and never reads outside them", "statement": "new_image/new_image_stride(_borrowed) succeed exactly when width, height > 0, stride >= width, sizes are representable, gamma is in [0,1], and the buffer has at least stride*(height-1)+width pixels; row y of the image then consists of the width pixels starting at y*stride, all inside the buffer.", "quantifier": "every buffer length, width, height, stride (including values near 2^32 and 2^64) and gamma", "why_tests_cant": "Boundary arithmetic with overflow over all sizes.", "anchors": ["src/rows.rs:PixelsSource::for_pixels", "src/image.rs:new_stride_internal", "src/image.rs:check_image_size", "src/image.rs:new_internal", "src/rows.rs:row_rgba"]}
{"id": "C17", "title": "A cloned Image is independent of the original", "statement": "An Image obtained by clone() keeps presenting the same pixels after the original Image has been dropped.", "quantifier": "every image source kind and every sequence of clone/drop/read operations", "why_tests_cant": "Use-after-free depends on object lifetimes over histories, invisible to functional tests.", "anchors": ["src/rows.rs:impl Clone for DynamicRows", "src/seacow.rs:SeaCowInner::clone"]}
{"id": "C18", "title": "Memory handed over through the C API is freed exactly once", "statement": "Row arrays and pixel buffers whose ownership was passed with liq_image_set_memory_ownership are freed exactly once, no later than liq_image_destroy, buffers not handed over are never freed, and nothing that the caller did not allocate is ever passed to free.", "quantifier": "every sequence of set_memory_ownership / quantize / remap / set_background / destroy calls", "why_tests_cant": "Double frees and bad frees depend on call histories.", "anchors": ["src/rows.rs:set_memory_ownership", "src/rows.rs:free_histogram_inputs", "src/seacow.rs:make_owned", "imagequant-sys/src/ffi.rs:liq_image_set_memory_ownership"]}
{"id": "C19", "title": "The histogram counts each pixel once, order does not matter", "statement": "Without automatic posterization escalation, the weight recorded for a colour is the saturating sum of the importances of its pixels (255 each without a map) over everything added, independent of the order of pixels, rows and add_colors entries; pixels of importance 0 and entries with count 0 leave no trace.", "quantifier": "every sequence of add_image/add_colors calls and every permutation of the pixels", "why_tests_cant": "All sequences and permutations.", "anchors": ["src/hist.rs:add_color", "src/hist.rs:add_colors", "src/hist.rs:add_pixel_rows"]}
{"id": "C20", "title": "Automatic posterization keeps colour weights", "statement": "When a histogram grows past its limit and is posterized by one more bit, the weights of colours that become equal are added up, so the total weight is preserved.", "quantifier": "every histogram and every hash iteration order", "why_tests_cant": "Needs more than 131072 distinct colours with collisions in an unspecified hash order.", "anchors": ["src/hist.rs:init_posterize_bits"]}
{"id": "C21", "title": "The thread schedule does not influence results", "statement": "For a given image and result, undithered remapping writes the same bytes for every assignment of rows to threads and every order; up to rounding of float sums, k-means iteration produces the same palette and the same error for every distribution of histogram chunks over threads.", "quantifier": "every distribution of chunks/rows over any number of threads and every processing order", "why_tests_cant": "Schedules are not controllable in tests.", "anchors": ["src/kmeans.rs:iteration", "src/kmeans.rs:merge", "src/remap.rs:remap_to_palette", "src/rayoff.rs"]}
{"id": "C22", "title": "Dithered output does not depend on the number of CPUs for small images or speed 1", "statement": "If the image is at most 128 rows tall, or the result was made with speed 1, dithered remapping uses a single chunk whatever the number of CPUs; in all cases the chunks partition the rows: every row is dithered into its own place exactly once, in order, with the scan direction given by the parity of its row number.", "quantifier": "every width, height and CPU count", "why_tests_cant": "All sizes and CPU counts.", "anchors": ["src/remap.rs:remap_to_palette_floyd", "src/seacow.rs:chunks"]}
{"id": "C23", "title": "Dithering error stays bounded", "statement": "While dithering, every colour searched for keeps its colour channels within [-0.1, 1.1] and alpha within [0,1] when the input is in range, the diffused error in any cell never exceeds the largest single-pixel error (no accumulation), and diffusion distributes exactly the pixel's error (weights 7,3,5,1 over 16).", "quantifier": "every image, palette, dither map, level and error limit", "why_tests_cant": "An invariant over the whole error-diffusion history of arbitrarily large images.", "anchors": ["src/remap.rs:get_dithered_pixel", "src/remap.rs:dither_row"]}
{"id": "C24", "title": "Background pixels become transparent exactly when they match at least as well", "statement": "With a background image set, dithering off and a fully transparent palette entry nearest to transparent black, an output byte is the transparent index if the background pixel is at least as close to the pixel as the best palette colour, and otherwise the best palette colour; without such a palette entry the background is ignored.", "quantifier": "every image, background and palette", "why_tests_cant": "All images and backgrounds, ties included.", "anchors": ["src/remap.rs:remap_to_palette", "src/image.rs:set_background"]}
{"id": "C25", "title": "Median cut assigns every histogram colour to exactly one non-empty palette entry", "statement": "Median cut keeps the histogram colours (as a multiset), splits them into disjoint non-empty groups covering all of them, one group per palette entry, and records in each colour the index of its group; splitting always makes progress and terminates.", "quantifier": "every histogram and target size", "why_tests_cant": "Partitioning works in place with an unstable quick-select; invariants over all inputs.", "anchors": ["src/mediancut.rs:split", "src/mediancut.rs:hist_item_sort_half", "src/mediancut.rs:qsort_partition", "src/mediancut.rs:cut", "src/mediancut.rs:into_palette"]}
{"id": "C26", "title": "Palette colours stay inside the range of the input colours", "statement": "After any number of k-means iterations, each channel of every non-fixed palette colour lies between the minimum and maximum of that channel over the histogram's colours (internal colour space) and the previous palette; the new colour of a used entry is the weighted mean of the colours mapped to it.", "quantifier": "every histogram, palette, number of iterations", "why_tests_cant": "Convexity invariant over all iterations.", "anchors": ["src/kmeans.rs:iterate_batch", "src/kmeans.rs:finalize", "src/kmeans.rs:replace_unused_colors"]}
{"id": "C27", "title": "No pixel is dropped unless the user asked for it", "statement": "When no importance map was set, the automatically computed map gives every pixel a non-zero importance, so every pixel's colour is counted; a user map must have exactly width*height entries and pixels with entry 0 are ignored.", "quantifier": "every image", "why_tests_cant": "The map goes through float noise estimation and seven filter passes; positivity must hold for all images.", "anchors": ["src/image.rs:contrast_maps", "src/image.rs:set_importance_map", "src/blur.rs", "src/hist.rs:add_pixel_rows"]}
{"id": "C28", "title": "The user's importance map is kept", "statement": "A map set with set_importance_map stays in force until it is replaced: quantizing and remapping do not alter it.", "quantifier": "every sequence of quantize/remap calls", "why_tests_cant": "History-dependent.", "anchors": ["src/image.rs:update_dither_map", "src/image.rs:contrast_maps"]}
{"id": "C29", "title": "The reported palette reflects the current output gamma", "statement": "palette() returns the palette converted with the gamma most recently accepted by set_output_gamma.", "quantifier": "every sequence of palette()/set_output_gamma/set_dithering_level/remap calls", "why_tests_cant": "History-dependent cache invalidation.", "anchors": ["src/quant.rs:int_palette", "src/quant.rs:set_output_gamma"]}
{"id": "C30", "title": "Range-checked float arguments reject NaN", "statement": "set_output_gamma, set_dithering_level, image gamma, add_colors gamma and add_fixed_color gamma accept only values inside the documented range; every other value, including NaN, is rejected with ValueOutOfRange and changes nothing.", "quantifier": "every float value including NaN and infinities", "why_tests_cant": "Comparison chains treat NaN differently; the claim is over all floats.", "anchors": ["src/quant.rs:set_output_gamma", "src/quant.rs:set_dithering_level", "src/image.rs:new_internal", "src/hist.rs:add_colors", "src/hist.rs:add_fixed_color"]}
{"id": "C31", "title": "Quantization terminates within a bounded number of passes", "statement": "quantize performs at most feedback_loop_trials+1 median cuts, at most feedback_loop_trials k-means passes in the search, and at most kmeans_iterations passes of refinement, for every behaviour of the float arithmetic; the search never fails with ValueOutOfRange.", "quantifier": "every histogram and every float behaviour", "why_tests_cant": "Termination of adaptive loops with float-dependent control.", "anchors": ["src/quant.rs:find_best_palette", "src/quant.rs:refine_palette", "src/attr.rs:feedback_loop_trials", "src/attr.rs:kmeans_iterations"]}
{"id": "C32", "title": "C API setters validate the value they were given", "statement": "liq_set_quality, liq_set_min_posterization, liq_set_speed and liq_set_max_colors return LIQ_VALUE_OUT_OF_RANGE for every argument outside the documented range and store exactly the argument otherwise.", "quantifier": "every C int argument", "why_tests_cant": "2^32 arguments; truncating casts.", "anchors": ["imagequant-sys/src/ffi.rs:liq_set_quality", "imagequant-sys/src/ffi.rs:liq_set_min_posterization"]}
{"id": "C33", "title": "C API rejects dead or foreign handles without side effects", "statement": "Every C function that checks its handle returns LIQ_INVALID_POINTER / NULL / -1 for a handle whose tag is not the expected one and changes no state; result output pointers are set to NULL on every failure and to a live result on success.", "quantifier": "every handle state and every function", "why_tests_cant": "All combinations of handle kinds and functions.", "anchors": ["imagequant-sys/src/ffi.rs:bad_object", "imagequant-sys/src/ffi.rs:store_boxed_result"]}
{"id": "C34", "title": "Limits on fixed colours are reported", "statement": "At most 256 fixed colours can be added to an image and (directly) to a histogram, the 257th is rejected and changes nothing; adding an image whose fixed colours would push the histogram over 256 fails with BufferTooSmall.", "quantifier": "every sequence of add_fixed_color/add_image calls", "why_tests_cant": "History-dependent.", "anchors": ["src/image.rs:add_fixed_color", "src/hist.rs:add_fixed_color", "src/hist.rs:add_image"]}
{"id": "C35", "title": "Noise-map filters compute what they claim", "statement": "The max/min filters compute the maximum/minimum over the plus-shaped neighbourhood clamped at the image border; the box blur is the exact mean of a window of 2*size clamped neighbours, never overflows or underflows its 16-bit accumulator, never indexes out of bounds, and keeps values between the smallest and the largest input.", "quantifier": "every image of every size and every radius for which the accumulator fits", "why_tests_cant": "All images; overflow needs specific content.", "anchors": ["src/blur.rs:liq_op3", "src/blur.rs:transposing_1d_blur", "src/blur.rs:liq_blur"]}
{"id": "C36", "title": "A failed remap leaves the result unchanged", "statement": "If a remap fails (aborted, buffer too small, out of memory, unsupported) the palette, quality and error reported by the result afterwards are those from before the call; a successful remap makes palette(), remapping_error and remapping_quality refer to that remap until the next successful remap or setting change.", "quantifier": "every sequence of operations on a result", "why_tests_cant": "History-dependent.", "anchors": ["src/quant.rs:write_remapped_image_rows_internal", "src/quant.rs:remapping_error", "src/quant.rs:int_palette"]}
{"id": "C37", "title": "Remapping never reads uninitialised output bytes", "statement": "Dithered remapping only reads back output bytes that were written earlier in the same remap.", "quantifier": "every image size, CPU count and mode", "why_tests_cant": "Uninitialised reads are invisible to tests without an instrumented allocator.", "anchors": ["src/remap.rs:remap_to_palette_floyd", "src/remap.rs:dither_row"]}
{"id": "C38", "title": "Pixel-count arithmetic does not wrap", "statement": "For every image size that the constructor accepts, the number of pixels used to normalise the remapping error and to decide whether the image is huge equals width*height.", "quantifier": "every accepted width and height", "why_tests_cant": "Needs images of 2^32 pixels or more.", "anchors": ["src/remap.rs:remap_to_palette", "src/quant.rs:optionally_generate_dither_map", "src/image.rs:check_image_size"]}
{"id": "C39", "title": "Speed settings give consistent internal budgets", "statement": "For every accepted speed the three progress stages are non-negative and add up to 100, iteration counts fit their integer types, and a larger histogram never gets more trials or iterations than a smaller one.", "quantifier": "every speed 1..10 and every histogram size", "why_tests_cant": "All speeds times all histogram sizes, including intermediate overflow.", "anchors": ["src/attr.rs:set_speed", "src/attr.rs:feedback_loop_trials", "src/attr.rs:kmeans_iterations"]}
{"id": "C40", "title": "Output posterization", "statement": "With set_min_posterization(b) every channel of every reported palette entry only takes the 2^(8-b) values of the form (top bits repeated), the change per channel is below 2^b, the mapping is monotone and idempotent and keeps 0 and 255.", "quantifier": "every palette, every b in 0..4", "why_tests_cant": "All channel values and all palettes.", "anchors": ["src/pal.rs:posterize_channel", "src/pal.rs:init_int_palette"]}
{"id": "C41", "title": "Transparent palette entries are canonical", "statement": "Every palette entry with alpha 0 is reported as (71,112,76,0), or as (0,0,0,0) when it is a fixed or frozen entry; fully transparent input pixels of any RGB are one colour to the library.", "quantifier": "every palette and every input", "why_tests_cant": "All inputs.", "anchors": ["src/pal.rs:init_int_palette", "src/hist.rs:add_color", "src/pal.rs:from_rgba"]}
{"id": "C42", "title": "Empty inputs are reported, not quantized", "statement": "Quantizing a histogram with no colours (nothing added, or only zero-importance pixels) and no fixed colours fails with Unsupported; any histogram with at least one colour or fixed colour yields a palette or a documented error, never an empty palette.", "quantifier": "every sequence of histogram operations", "why_tests_cant": "History-dependent.", "anchors": ["src/hist.rs:quantize_internal"]}
{"id": "C43", "title": "add_colors validates its input atomically", "statement": "add_colors fails with ValueOutOfRange and changes nothing if the slice is empty or longer than 2^24 or gamma is outside [0,1); otherwise it succeeds and counts each entry; the gamma of the histogram is the first non-zero gamma given.", "quantifier": "every slice and gamma", "why_tests_cant": "All inputs.", "anchors": ["src/hist.rs:add_colors", "src/hist.rs:add_fixed_color"]}
{"id": "C44", "title": "Histogram clusters partition the colours", "statement": "The initial grouping by the top bits of the four channels covers every histogram colour exactly once: the groups are contiguous, disjoint, in order, and each colour lies in the group of its top bits; the total weight equals the sum of the item weights; no weight exceeds a tenth of the total except fixed colours.", "quantifier": "every histogram and hash order", "why_tests_cant": "Counting-sort invariants over all inputs.", "anchors": ["src/hist.rs:finalize_builder"]}
{"id": "C45", "title": "Dithering leaves exactly representable pixels alone", "statement": "Dithering level 0 gives the undithered result; at any level, pixels of an image all of whose colours are palette entries are mapped to their own colour.", "quantifier": "every image, palette and level", "why_tests_cant": "All images.", "anchors": ["src/remap.rs:remap_to_palette_floyd", "src/remap.rs:get_dithered_pixel"]}
{"id": "C46", "title": "Background and importance-map setters validate sizes", "statement": "set_background rejects (without effect) a background that has its own background (Unsupported) or a different size (BufferTooSmall); set_importance_map rejects any length other than width*height with BufferTooSmall without effect.", "quantifier": "every image state and argument", "why_tests_cant": "All sizes and histories.", "anchors": ["src/image.rs:set_background", "src/image.rs:set_importance_map"]}
{"id": "C47", "title": "Search trees are exhaustive and bounded", "statement": "The nearest-colour index contains every palette entry exactly once, its construction terminates, and an exact colour present in the palette is always found with difference 0.", "quantifier": "every palette up to 256 entries and every float behaviour for the structural part", "why_tests_cant": "All palettes.", "anchors": ["src/nearest.rs:vp_create_node", "src/nearest.rs:Nearest::new"]}
{"id": "C48", "title": "A remap ends in one of three ways", "statement": "A remap into a large enough buffer succeeds, or is aborted, or reports lack of memory. It is aborted exactly when the progress callback asked for it, and that report is then the last one; lack of memory is only reported when a float is NaN. There is no other error and no panic.", "quantifier": "every result and image a caller can make, every callback and buffer", "why_tests_cant": "All histories of calls and all callback behaviours.", "anchors": ["src/quant.rs:write_remapped_image_rows_internal", "src/remap.rs:remap_to_palette", "src/remap.rs:remap_to_palette_floyd"]}
{"id": "C49", "title": "Palette colours are mixtures of the input colours", "statement": "Every palette entry that quantization returns is a weighted average (with non-negative weights) of the colours given to the histogram, in the internal colour space: no entry lies outside the convex hull of the input.", "quantifier": "every histogram filled with images, counted colours and fixed colours in any combination, every setting, callback, hash order, sorting outcome and thread schedule; exact arithmetic", "why_tests_cant": "The palette passes through median cut, repeated k-means with replacement of unused entries, fixed-colour insertion and reordering; a stray entry needs one particular path.", "anchors": ["src/mediancut.rs:mediancut", "src/kmeans.rs:Kmeans::finalize", "src/quant.rs:find_best_palette", "src/quant.rs:refine_palette", "src/hist.rs:finalize_builder"]}
{"id": "C50", "title": "The reported palette stays within the range of the input channels", "statement": "If every visible input colour and every visible pixel of later remapped images has its red, green and blue within given bounds, so has every visible colour of palette() at any time; with output posterization the bounds are the posterized ones.", "quantifier": "every box of 8-bit colours, histogram, setting, and sequence of remap/palette/level/clone calls; one gamma; exact arithmetic", "why_tests_cant": "All images and call histories; rounding at the edges of the range decides.", "anchors": ["src/pal.rs:init_int_palette", "src/pal.rs:to_rgb", "src/remap.rs:remap_to_palette", "src/quant.rs:palette"]}
{"id": "C51", "title": "Opaque images get opaque palettes", "statement": "If the alpha of all input colours and remapped pixels lies in a range, so does the alpha of every reported colour (up to output posterization). In particular opaque input gives only entries with alpha 255.", "quantifier": "every alpha range, histogram, setting, output gamma and sequence of calls; exact arithmetic", "why_tests_cant": "All images and call histories; one entry with alpha 254 makes the output file translucent.", "anchors": ["src/pal.rs:init_int_palette", "src/pal.rs:to_rgb", "src/kmeans.rs:Kmeans::finalize"]}
{"id": "C52", "title": "Grey images get grey palettes", "statement": "If all visible input colours and remapped pixels have equal red, green and blue, so has every visible reported colour.", "quantifier": "every histogram, setting, gamma and sequence of calls; exact arithmetic", "why_tests_cant": "All images and call histories.", "anchors": ["src/pal.rs:init_int_palette", "src/pal.rs:to_rgb", "src/pal.rs:from_rgba"]}
{"id": "C53", "title": "The reported quantization error was measured", "statement": "If the progress callback never asks to stop, the number from which quantization_error() and quantization_quality() are computed is one of: nothing, only without a quality limit at speed 8 or more; 0, and then the palette consists of exactly the colours of the histogram; or the weighted mean, over the colours of the histogram, of the difference to the nearest colour of a palette of which the returned palette is one k-means refinement.", "quantifier": "every histogram filled with images, counted colours and fixed colours in any combination, every setting, hash order, sorting outcome and thread schedule; exact arithmetic", "why_tests_cant": "The search keeps several palettes and errors in variables; pairing one palette with the error of another one gives a plausible number.", "anchors": ["src/quant.rs:find_best_palette", "src/quant.rs:refine_palette", "src/kmeans.rs:Kmeans::iteration", "src/quant.rs:quantization_error", "src/pal.rs:with_fixed_colors"]}
{"id": "C54", "title": "The search keeps the best trial", "statement": "The feedback search returns the palette and the error of one of its trials; no trial had a smaller error unless the returned error is within the target. It makes at most the number of trials that the settings allow.", "quantifier": "every histogram, setting, target, callback, hash order, sorting outcome and thread schedule; exact arithmetic", "why_tests_cant": "Whether a worse palette replaces a better one depends on the sequence of errors of up to 47 trials.", "anchors": ["src/quant.rs:find_best_palette"]}
{"id": "C55", "title": "Vector and portable colour differences agree", "statement": "The x86-64 and aarch64 versions of f_pixel::diff compute the same number as the portable version: for each colour channel the larger of the squared differences over black and over white, summed. On x86-64 the result is bit for bit the same unless one of the squares is NaN.", "quantifier": "all pairs of colours; any float type for x86-64, exact arithmetic for the sum order of aarch64", "why_tests_cant": "A test runs on one architecture; lane order, the operand copied by scalar subtraction and the lanes that are added are easy to get wrong for some colours only.", "anchors": ["src/pal.rs:f_pixel::diff"]}
{"id": "C56", "title": "Hashing of colours is sound and collision-free", "statement": "Hashing the keys of the colour map and of the set of fixed colours never reaches an unimplemented method. Equal keys have equal hashes, and two keys have the same 64-bit hash only if they are the same colour.", "quantifier": "all pairs of keys, little- and big-endian", "why_tests_cant": "2^64 pairs of keys.", "anchors": ["src/hist.rs:U32Hasher", "src/hist.rs:HashColor"]}
{"id": "C57", "title": "Median cut is greedy and divides at the weighted median", "statement": "Median cut starts from the clusters of the histogram (or one box), and until it has enough boxes, no box can be divided, or the total error is within the target, it divides a box of the highest priority along its widest channel (up to the resolution of the sort key) at the weighted median, and the palette consists of the weighted mean colours of the boxes.", "quantifier": "every histogram with colours in range and non-negative weights, every histogram a search can come to, every target and every outcome of select_nth_unstable; exact arithmetic", "why_tests_cant": "Any box, channel or position gives a valid palette; only the quality is worse.", "anchors": ["src/mediancut.rs:MedianCutter::total_error_below_target", "src/mediancut.rs:MedianCutter::take_best_splittable_box", "src/mediancut.rs:MBox::split", "src/mediancut.rs:hist_item_sort_half", "src/mediancut.rs:mediancut"]}
{"id": "C58", "title": "C programs that follow the manual never crash the library", "statement": "No call in a program that follows the manual panics, aborts or is undefined. Palettes have from 1 to 256 entries and at most as many as were asked for, and asking again gives the same palette. A successful remap has written every pixel, and each is an index into the palette that is handed out afterwards. A remap that was started fails only because it was told to stop or memory ran out, and then the result is as before.", "quantifier": "every sequence of calls of the whole C API with any arguments, such that pixels are readable when they are used, output rows have the size of the image, and handles that a function does not check are good; every hash order, sorting outcome and thread schedule; any float arithmetic", "why_tests_cant": "Objects, memory and calls combine in unboundedly many ways.", "anchors": ["imagequant-sys/src/ffi.rs:liq_image_quantize", "imagequant-sys/src/ffi.rs:liq_write_remapped_image", "src/capi.rs:liq_write_remapped_image_rows_impl", "src/image.rs:free_histogram_inputs", "src/rows.rs:DynamicRows"]}
{"id": "C59", "title": "C calls change only what they are documented to change", "statement": "A call changes no existing object other than the one it is called to change; settings are not changed by work done with them, and copies of settings are independent. Only quantization, remapping and reading an image report progress. The setters of results accept exactly the documented range, store the value, forget an earlier remap and change nothing else. An image has the size it was created with, and is created exactly for the permitted sizes and gammas.", "quantifier": "every world state, every call of the C API, every program that does not change the object in question; the ranges in exact arithmetic", "why_tests_cant": "A side effect on another object would be seen only by a program that uses that object later.", "anchors": ["imagequant-sys/src/ffi.rs:liq_set_dithering_level", "imagequant-sys/src/ffi.rs:liq_set_output_gamma", "imagequant-sys/src/ffi.rs:liq_attr_copy", "imagequant-sys/src/ffi.rs:liq_image_create_custom", "src/quant.rs:set_dithering_level"]}
{"id": "C60", "title": "Dithering is Floyd-Steinberg error diffusion in serpentine order", "statement": "A dithered remap gives every pixel 7/16 of the error of the pixel before it in the scan and 3/16, 5/16 and 1/16 of the errors of the three pixels above; rows are scanned alternately to the right and to the left. To the pixel's colour is added what it received times the strength, as far as it fits into the range, and without a background the byte written is that of a nearest palette colour; a background shows through where it is at least as near as every palette colour. An image is one run if it is at most 128 rows tall, on one CPU, or at speed 1; otherwise every chunk of at least 65 rows is a run begun two rows above it.", "quantifier": "every dithered remap of every image, background, importance map, palette, dithering level and number of CPUs; exact arithmetic", "why_tests_cant": "A wrong weight, neighbour or buffer cell gives an image that looks dithered too.", "anchors": ["src/remap.rs:dither_row", "src/remap.rs:get_dithered_pixel", "src/remap.rs:remap_to_palette_floyd"]}
{"id": "C61", "title": "A k-means pass is a step of Lloyd's algorithm", "statement": "A pass of k-means assigns every colour of the histogram to a nearest palette entry, with feedback increases the weights of badly represented colours by the documented formula, moves every entry that is neither fixed nor transparent to the weighted mean of its colours, and then gives every unused entry, one after another, the colour of the histogram that fits the palette worst at that time. The error returned is the weighted mean of the differences measured.", "quantifier": "every histogram, palette, distribution of the work over threads, with and without feedback; exact arithmetic", "why_tests_cant": "A pass with a wrong weight or a wrong replacement still gives plausible palettes.", "anchors": ["src/kmeans.rs:iteration", "src/kmeans.rs:iterate_batch", "src/kmeans.rs:finalize", "src/kmeans.rs:replace_unused_colors"]}
{"id": "C62", "title": "The palette is refined on the image before dithering", "statement": "Before an image without dither map is dithered, every pixel is assigned to a nearest colour of the palette and every colour that is neither fixed nor transparent moves to the mean of its pixels, weighted with the importance map; colours without pixels stay. The palette reported after the remap is this one, rounded. Without dithering, or without a new dither map, it is the palette that quantization found.", "quantifier": "every image, importance map, palette and setting such that a dither map is made (images of at most 2000 x 2000 pixels, or dither maps always on); exact arithmetic", "why_tests_cant": "A palette refined with wrong weights or on wrong pixels looks plausible.", "anchors": ["src/quant.rs:optionally_generate_dither_map", "src/remap.rs:remap_to_palette", "src/kmeans.rs:update_color", "src/kmeans.rs:finalize"]}
{"id": "C63", "title": "The dither map suppresses dithering in short runs", "statement": "The dither map made before dithering divides every row of palette indices into runs of equal indices and multiplies the edge map, raised to at least a third, by n/(n+20), where n is 10 per pixel of the run plus 15 per equal neighbour above or below. With a background, transparent palette colours do not end runs. The edge map is the one that the image has, or a new one. Images smaller than 4 pixels or very large ones get no dither map, and a dither map that exists is kept.", "quantifier": "every image, edge map, background, palette and setting; exact arithmetic", "why_tests_cant": "The map only modulates the strength of dithering.", "anchors": ["src/image.rs:update_dither_map", "src/quant.rs:optionally_generate_dither_map"]}
{"id": "C64", "title": "Contrast maps show noise and edges", "statement": "Adding an image without importance map computes its importance map and edge map from the second differences of the image in both directions: the raw bytes follow the documented formulas, the importance map is the raw noise map grown twice, blurred, grown and shrunk three times, the edge map is shrunk, grown and limited by the importance map. A flat image has 255 everywhere. A map set by the user is kept. Images smaller than 4 pixels or very large ones get no maps.", "quantifier": "every image of every size, every histogram and setting; exact arithmetic", "why_tests_cant": "Every pixel of the maps depends on a neighbourhood of the image, borders included.", "anchors": ["src/image.rs:contrast_maps", "src/blur.rs:liq_max3", "src/blur.rs:liq_min3", "src/blur.rs:liq_blur"]}
{"id": "C65", "title": "Reported colours are the palette, rounded", "statement": "A reported colour is the palette entry with the weights and the opacity divided out, converted from gamma 0.57 to the output gamma, cut into 256 equal steps and posterized: without posterization every byte is less than one step from the exact value. Entries with an opacity less than a 256th, and those whose opacity is posterized to 0, are reported as transparent with the channels 71, 112 and 76, unless they are fixed. The order of the entries is kept.", "quantifier": "every palette, output gamma and posterization; exact arithmetic", "why_tests_cant": "Infinitely many palette colours and gammas.", "anchors": ["src/pal.rs:to_rgb", "src/pal.rs:init_int_palette", "src/pal.rs:posterize_channel", "src/quant.rs:int_palette"]}
{"id": "C66", "title": "Preparing for dithering early changes nothing", "statement": "Calling optionally_prepare_for_dithering_with_background_set before the background is set is redundant, as its comment says: the remap that follows reports the same palette, and uses the same dither map, as it would without the call. The pixels and the background of the image are not changed, and the call fails only for lack of memory.", "quantifier": "every result, image, background, settings and dithering level; buffers of the size of the image", "why_tests_cant": "The call refines the palette of the result itself; that shows only in remaps with other settings or other images.", "anchors": ["src/quant.rs:optionally_prepare_for_dithering_with_background_set", "src/quant.rs:optionally_generate_dither_map"]}
{"id": "C67", "title": "Remaps do not influence each other", "statement": "A remap gives the same bytes, palette, error and image whichever remaps were done before: of other images with the same result, or of the same image with this or other results; and whatever the buffer contained.", "quantifier": "every result, image, buffer, order and number of earlier remaps, whether they failed or not", "why_tests_cant": "Caches of rows, maps and the palette are filled or freed by remaps; only sequences of calls show that.", "anchors": ["src/quant.rs:remap_into", "src/quant.rs:write_remapped_image_rows_internal", "src/quant.rs:optionally_generate_dither_map", "src/image.rs:free_histogram_inputs"]}
{"id": "C68", "title": "Looking at the palette changes nothing", "statement": "Calling palette() does not change what later calls do: it returns the same colours when it is called again, the errors, the quality and the settings stay the same, and later remaps give the same bytes, palettes and errors.", "quantifier": "every result, image and buffer; palette() at any time", "why_tests_cant": "palette() rounds the stored palette. That it does not show is a property of pairs of programs.", "anchors": ["src/quant.rs:palette", "src/quant.rs:int_palette", "src/pal.rs:init_int_palette"]}
{"id": "C69", "title": "Quantizing the output again is lossless", "statement": "The picture that a remap produced, made into a new image and quantized again with settings that allow as many colours as its palette has (the settings of the first time do), is reproduced without loss: the quantization and every remap of it succeed, and every pixel has the same colour (fully transparent colours are all alike). It does not matter which image was remapped, or how it was dithered.", "quantifier": "every result, image and dithering level of the first remap; speed at most 7, posterization 0 and target quality 100 the second time; every dithering level of the second remap", "why_tests_cant": "Generation loss shows only for particular palettes: their colours have to survive the conversions to floats, weights and back.", "anchors": ["src/quant.rs:remap_into", "src/quant.rs:palette", "src/hist.rs:finalize_builder", "src/attr.rs:quantize"]}
{"id": "C70", "title": "Debug builds quantize like release builds", "statement": "Quantizing a histogram in a debug build does the same as in a release build: no debug assertion of the search for a palette fails, and what unwritten histogram items are filled with does not show.", "quantifier": "every histogram a caller can make, every setting, callback, hash order, sort order and schedule of the threads", "why_tests_cant": "An assertion that fails only for particular weights or orders of items is not seen in a release build, and a debug build is tested with few pictures.", "anchors": ["src/mediancut.rs:new", "src/mediancut.rs:initial_boxes", "src/pal.rs:with_fixed_colors", "src/kmeans.rs:iterate_batch", "src/nearest.rs:vp_create_node", "src/quant.rs:refine_palette", "src/hist.rs:finalize_builder"]}
{"id": "C71", "title": "Integer arithmetic does not overflow", "statement": "Additions, subtractions, multiplications and shifts of integers stay within the types they have in the code, with pointers of 32 or of 64 bits, so that debug builds do not panic because of them and release builds do not wrap: in the settings, the constructors of images, histograms, quantization, palettes and remaps. The exception is the number of pixels of a remapped image, which is computed in 32 bits: it overflows if and only if the image has 2^32 pixels or more.", "quantifier": "every history of settings, images the constructors accept, histograms, results, callbacks, hash orders, sort orders and schedules", "why_tests_cant": "Overflows need extreme sizes or particular combinations of settings; release builds, which tests of large images use, wrap silently.", "anchors": ["src/attr.rs:set_speed", "src/quant.rs:find_best_palette", "src/hist.rs:finalize_builder", "src/image.rs:update_dither_map", "src/image.rs:check_image_size", "src/rows.rs:for_pixels", "src/remap.rs:remap_to_palette_floyd", "src/pal.rs:posterize_channel"]}
{"id": "C72", "title": "Builds without threads give the same results", "statement": "A build without the threads feature does the same as a build with threads: quantization gives the same palette and error and makes the same calls of the progress callback, and so do remaps without dithering. Remaps with dithering, too, if the image has up to 128 rows or the speed is 1; otherwise they do what a build with threads does on a machine with one CPU.", "quantifier": "every histogram, setting, callback, image, result and buffer; every schedule of the threads of the other build", "why_tests_cant": "The two builds share no code for their loops; tests of one say nothing about the other, and the schedule of threads is not under the control of tests.", "anchors": ["src/rayoff.rs", "src/kmeans.rs:iteration", "src/remap.rs:remap_to_palette", "src/remap.rs:remap_to_palette_floyd"]}
{"id": "C73", "title": "Debug builds make images, remap them and read palettes like release builds", "statement": "No debug_assert! in the construction of images, in adding images to histograms, in remapping and in palette() can fail, whatever calls a program makes: a debug build gives the same outcome, result, image, buffer and progress reports as a release build.", "quantifier": "every image, histogram, result of quantization after any calls, buffer, callback and schedule of threads", "why_tests_cant": "Tests that run in one kind of build do not see the other, and assertions about floats depend on values from user input.", "anchors": ["src/rows.rs", "src/image.rs", "src/hist.rs:add_pixel_rows", "src/remap.rs", "src/pal.rs:gamma_lut", "src/pal.rs:to_rgb", "src/quant.rs:int_palette"]}
{"id": "C74", "title": "Log messages of a quantization", "statement": "Log messages do not influence quantization: result and progress reports are the same with and without a log callback, and without one nothing is printed. With a log callback, quantization of n distinct colours first says that it found n colours. Unless all the colours fit and quality 100 is asked for, it then names rounds of the search with percentages that do not fall, at most as many as there are trials at this speed, and then that it moves the palette towards the minimum exactly if the speed is below 8 or a quality is set. In the end, it says how many palette entries are transparent (the first ones; only if there are any and last_index_transparent is off), or if the quality is too low, the error, which is above the limit it names. After an abort there are no more messages.", "quantifier": "every histogram, setting, progress callback, log callback, hash order, sort order and schedule", "why_tests_cant": "Texts in a log are not compared by tests, and which messages there are depends on speed, quality, number of colours and aborts.", "anchors": ["src/hist.rs:quantize_internal", "src/quant.rs:find_best_palette", "src/quant.rs:refine_palette", "src/quant.rs:sort_palette", "src/quant.rs:new", "src/attr.rs:verbose_print"]}
{"id": "C75", "title": "Messages about images and settings are true", "statement": "Making an image or setting the quality does the same with and without a log callback. Messages tell the truth: the buffer is said to be too short exactly if it is shorter than stride times height needs, gamma is blamed exactly if gamma is what is wrong, memory is said to be conserved exactly if the converted pixels of the image are not going to be kept, and the quality is called too low exactly if the accepted target is below 30.", "quantifier": "every buffer, callback, width, height, stride, gamma, setting and quality", "why_tests_cant": "Messages come from conditions that repeat those of the code they are about; a difference between the two shows only for particular sizes.", "anchors": ["src/image.rs:new_internal", "src/image.rs:new_stride_internal", "src/rows.rs:for_pixels", "src/rows.rs:should_use_low_memory", "src/attr.rs:set_quality"]}
{"id": "C76", "title": "Buffered log messages are flushed", "statement": "Each message goes to the log callback set last. After it, the flush callback set at that time is called before a message goes to another log callback, before the flush callback is replaced and before the settings are gone. The flush callback is called when a callback is set or the settings are dropped, and at no other time.", "quantifier": "every sequence of setting callbacks, calls that print messages, and dropping the settings", "why_tests_cant": "Lost messages need callbacks that are replaced while messages are buffered.", "anchors": ["src/attr.rs:set_log_callback", "src/attr.rs:set_log_flush_callback", "src/attr.rs:verbose_print", "src/attr.rs:verbose_printf_flush", "src/attr.rs:drop"]}
{"id": "C77", "title": "Only finite values", "statement": "Quantization works with finite numbers only, as the comment of the comparison of floats says: with rounded arithmetic, the colours of the palette are finite numbers between 0 and 1, their popularities are finite, and the error of the palette is a finite number that is not negative.", "quantifier": "every histogram of usual size, setting, callback, hash order, sort order and schedule of a successful quantization", "why_tests_cant": "Weights are multiplied again in each round of the search and sums run over all colours; infinity and NaN need particular weights and do not fail visibly, because NaN compares as equal.", "anchors": ["src/lib.rs:OrdFloat", "src/kmeans.rs:iteration", "src/kmeans.rs:finalize", "src/hist.rs:finalize_builder", "src/quant.rs:find_best_palette", "src/mediancut.rs:weighed_average_color"]}
{"id": "C78", "title": "Opaque palettes in spite of rounding", "statement": "With rounded arithmetic, too, a histogram that was given only opaque colours gets a palette in which every reported colour has alpha 255.", "quantifier": "every histogram with up to 16384 colours one of which has a count and is not fixed, every setting with speed at least 5, every output gamma, callback, hash order, sort order and schedule; any arithmetic with IEEE error bounds", "why_tests_cant": "Averages of equal numbers are not equal to the number after rounding, and the error grows with the number of colours in a box and with the rounds of search; one entry with alpha 254 makes the output file translucent.", "anchors": ["src/mediancut.rs:weighed_average_color", "src/mediancut.rs:split", "src/kmeans.rs:update_color", "src/kmeans.rs:finalize", "src/pal.rs:to_rgb", "src/pal.rs:init_int_palette"]}
{"id": "C79", "title": "Running out of memory", "statement": "If a fallible request for memory is refused, adding an image to a histogram and quantizing return OutOfMemory; if none is refused, they do what they do with plenty of memory. The progress reported until then is the same. Afterwards the caller can try again: the histogram and the image give what they would have given without the failed call.", "quantifier": "every sequence of answers of the allocator, every image, histogram, setting, callback, hash order, sort order and schedule", "why_tests_cant": "Allocators do not fail in tests, and each of the requests may be the one that fails, also those of several threads at the same time; what is left in the image and the histogram shows only in the next call.", "anchors": ["src/image.rs:contrast_maps", "src/hist.rs:add_image", "src/hist.rs:add_pixel_rows", "src/hist.rs:finalize_builder", "src/kmeans.rs:try_merge", "src/mediancut.rs:new", "src/rows.rs:all_rows_f"]}
{"id": "C80", "title": "Running out of memory while remapping", "statement": "If a fallible request for memory is refused, also by several workers at the same time, remapping returns OutOfMemory, leaves the quantization result as it was and the pixels of the image and its background as they were; if none is refused it does what it does with plenty of memory. Afterwards the caller can try again and gets what the first remap would have given. remapped() never succeeds when a request was refused.", "quantifier": "every sequence of answers of the allocator, every quantization result, image, buffer, callback and schedule", "why_tests_cant": "Allocators do not fail in tests; each request of each thread may be the one that fails, and what is left in the image shows only in the next call.", "anchors": ["src/remap.rs:remap_to_palette", "src/remap.rs:remap_to_palette_floyd", "src/quant.rs:write_remapped_image_rows_internal", "src/quant.rs:generate_dither_map", "src/quant.rs:palette_vec", "src/quant.rs:remapped", "src/rows.rs:rows_iter", "src/image.rs:update_dither_map"]}
{"id": "C81", "title": "Only the pixels matter", "statement": "It makes no difference how an image was made: from a buffer with any stride, from row pointers, from a callback or as a clone. A program that gets images with the same size, gamma and pixels gets the same answers, the same bytes, histograms and results, and the same progress, whatever it does with them.", "quantifier": "every list of pairs of images with the same size, gamma and pixels, and every sequence of calls that add fixed colours, set importance maps and backgrounds, clone and drop images, make histograms, quantize, change results and remap", "why_tests_cant": "Rows of callbacks are read again on each use, converted rows are kept or not, and pixels are released after they were counted, differently for each kind of image; a difference shows only for particular sequences of calls.", "anchors": ["src/rows.rs:for_pixels", "src/rows.rs:clone", "src/rows.rs:row_rgba", "src/rows.rs:row_f_shared", "src/rows.rs:prepare_iter", "src/rows.rs:free_histogram_inputs", "src/image.rs:Image", "src/image.rs:set_background", "src/image.rs:free_histogram_inputs"]}
