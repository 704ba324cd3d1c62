# Formal model of libimagequant — design

Source: `/repo` (Rust), read as text. Model and proofs: `/verif/lean` (Lean 4.33.0 + Mathlib).
Properties: `properties.jsonl` (C01…). Status and theorem names: `MANIFEST.json`.
Mutation log: `seeded/LOG.jsonl`.

## 1. How the code is modelled

* Every Rust function on the quantization path becomes a total Lean function that returns the
  new state. `Result<T, Error>` is `Except Fail T` where `Fail` is either one of the library's
  `Error` codes or `panic` (slice index out of bounds, `unwrap` on `None`, ArrayVec overflow,
  integer overflow). A theorem "= ok …" therefore also says "does not panic".
  Callbacks that may answer `Break` make a function run in the monad `PM`, which carries the log
  of progress values reported so far.
* **Floats.** The code uses `f32` and `f64`. The model is generic over a class `Flt F` that has one
  operation for each float operation the code uses, separately for the two widths
  (`add32`, `add64`, …, literals, casts). The class has *no laws*. So there are three levels of
  theorem, and each theorem's docstring says which one it is:
  * **any-float**: proved for every `F` with no assumption on arithmetic, or with the handful of
    laws that IEEE floats do satisfy, listed in the classes `FltSign` (signs and comparisons) and
    `FltVal` (which values are finite, order of literals) and `FltZero` (`Lemmas/NoWeight`: sums, products and quotients
    of zeros, and NaN; inhabited by `Ext`, the extended reals with NaN). These hold for IEEE floats with
    rounding, NaN and infinities.
  * **rounded**: proved for every `F` with the laws of the class `FltRound` (`Model/Rounded`): every
    operation on finite values whose exact result does not overflow returns that result up to half a
    unit in the last place plus the smallest subnormal number; `powf` is allowed eight units in the
    last place; comparisons, minimum, maximum and conversion to bytes are those of the exact values.
    That `f32`/`f64` have these laws is an assumption about the platform (for `powf` about its maths
    library). The class is inhabited by the reals and by `RoundedReal ρ` for any rounding functions `ρ`.
    Some of these theorems need `FltOrd` (`Model/RoundedOrder`), which adds that rounding keeps the
    order: products and sums of non-negative exact value do not become negative, `sqrt` is monotone, a
    rounded sum or difference stays on the side of a square root on which the exact one is, `f32::MAX` is at least
    2¹²⁷, `INFINITY` is above every number up to 2¹²⁷, and finite numbers are not NaN. `RoundedReal` has these
    laws for every monotone idempotent rounding; `cutRounding` (25 and 54 significant bits, towards zero) is one.
    C15 needs `FltCorrect` (`Model/CorrectRound`): `f32` operations return the exact result rounded by one monotone function
    that keeps the whole numbers up to 2²⁴; `ℝ` and `cutRounding` have it.
    `FltFull` (same file) has the same for `f64` and conversions, both roundings are idempotent, and `powf` of a number
    between 0 and 1 with a positive exponent stays there (an assumption about the maths library). `Over`
    (`Model/Overflow`), in which operations do overflow to infinity, has it, too. C77 and C78 use `FltMin`, which adds that
    a positive `f32` is at least 2⁻¹⁴⁹ (no half of a split is empty because of it); `Over` has it.
  * **exact**: proved for the instance `F = ℝ` where each operation is the exact real operation
    (`f32::MAX`/`INFINITY` are large constants and the theorem bounds the inputs). Rounding is
    not covered by these. A concrete failing input in a negation at this level uses values that
    are exactly representable, or does not depend on float values at all.
* **Unspecified behaviour of std** (hash iteration order, `select_nth_unstable`, number of
  threads, assignment of chunks to threads, garbage in uninitialised memory, callback answers)
  is a parameter (`HashOrder`, `SortOracle`, `Env`, `RemapEnv`); theorems quantify over all its
  values, restricted only by the documented contract of the std function (e.g. "is a
  permutation").
* **Memory ownership** (SeaCow, row pointers, `Image::clone`, C ownership flags) is a separate
  model with an explicit heap: addresses are allocated, freed, or never allocated (`Model/Heap`).
  The C API is a machine whose state holds the handles and this heap, and whose steps are the
  exported functions (`Model/Ffi`).
* **Integers**: where a property is about overflow the machine width is explicit
  (checked operations returning `panic`, or wrapping), otherwise `Nat`. `Model/Machine` repeats the
  functions with all their integer operations in the types of the code; C71 proves that it computes the same.
* **Sorting by a float key that may be NaN** (`sort_unstable_by` with `total_cmp`/`partial_cmp`):
  the model sorts with `List.mergeSort`. Theorems that use the order say so at the exact level,
  where no NaN exists. Any-float theorems use only that the result is a permutation.

## 2. Layout of /verif/lean/Verif

`Model/*` definitions (each cites file:lines), `Spec/*` independent specifications,
`Lemmas/*` proofs of helper facts, `Props/*` the property theorems with non-vacuity examples.

| Rust file | Lean model | functions |
|---|---|---|
| `src/pal.rs` | `Model/Pal` | `f_pixel::diff` (portable; the vector versions in `Model/Simd`), `from_rgba`, `to_rgb`, `gamma_lut`, `PalF` (`push`, `set`, `with_fixed_colors`, `swap`, `init_int_palette`), `PalPop`, `posterize_channel` |
| `src/nearest.rs` | `Model/Nearest` | all: tree construction, `search`, `search_node`, `nearest_other` bound |
| `src/attr.rs` | `Model/Attr` | `new`, all setters and getters, `set_speed` tables, `target_mse`, `quality_to_mse`, `mse_to_quality`, `progress`, `new_image*`, `quantize` |
| `src/hist.rs` | `Model/Hist` | all: `add_image`, `add_colors`, `add_fixed_color`, `add_pixel_rows`, `init_posterize_bits`, `finalize_builder`, clusters; `U32Hasher` in `Model/Hasher` |
| `src/mediancut.rs` | `Model/MedianCut` | all: boxes, variance, own quickselect, `take_best_splittable_box`, `into_palette` |
| `src/kmeans.rs` | `Model/Kmeans` | all, with the reduction tree over threads as a parameter |
| `src/quant.rs` | `Model/Quant`, `Model/Remap`, `Model/Prepare` | `QuantizationResult::new`, `find_best_palette`, `refine_palette`, `sort_palette`, remap entry points, getters/setters of the result |
| debug assertions of `mediancut.rs`, `pal.rs`, `nearest.rs`, `kmeans.rs`, `quant.rs`, `hist.rs`, `lib.rs` | `Model/Debug` | those met in a quantization |
| debug assertions of `rows.rs`, `image.rs`, `hist.rs`, `remap.rs`, `pal.rs`, `quant.rs` | `Model/DebugRemap` | those met in making, adding and remapping images and in `palette()`; pointers (`seacow.rs`, `ffi.rs`) not |
| `verbose_print`, `verbose_printf_flush`, `set_log_callback`, `set_log_flush_callback`, `drop` of `attr.rs` and the functions that print | `Model/Log` | messages are values, not text; callbacks are numbers |
| integer arithmetic of `attr.rs`, `quant.rs`, `hist.rs`, `pal.rs`, `image.rs`, `rows.rs`, `remap.rs` | `Model/Machine` | see the head of that file for what is left out |
| `rows.rs` `clone`, `Image` `derive(Clone)` | `Model/CloneImage` | contents of clones (their memory: `Model/Heap`) |
| `try_reserve`, `try_reserve_exact` in `image.rs`, `hist.rs`, `kmeans.rs`, `mediancut.rs`, `rows.rs`, `remap.rs`, `quant.rs` | `Model/Memory`, `Model/MemoryRemap` | requests that may be refused while quantizing and remapping |
| `src/blur.rs` | `Model/Blur` | all |
| `src/rows.rs`, `src/image.rs` | `Model/Image`, `Model/Heap` | constructors, row iterators, `contrast_maps`, `update_dither_map`, setters, clone, ownership |
| `src/remap.rs` | `Model/Remap` | `remap_to_palette`, `dither_row`, `remap_to_palette_floyd`, `get_dithered_pixel`, chunking |
| `src/rayoff.rs` | `Model/Rayoff` | all, with the loops of `kmeans.rs` and `remap.rs` that use it |
| `src/seacow.rs` | `Model/Heap`, `Model/Remap` | `SeaCow`, `Pointer`, `RowBitmap(Mut)`, chunking |
| `src/capi.rs`, `imagequant-sys/src/ffi.rs` | `Model/Ffi` | every exported `liq_*` function except those below |

**Not modelled:** rayon
internals (its contract is a parameter), allocator failure except where a theorem names it (C79, C80: the fallible requests of quantizing and remapping), wording of log messages and
the C wrappers of log callbacks (`liq_set_log_callback`, `liq_set_log_flush_callback`),
the `no_std`/wasm builds, debug
assertions about pointers, stack usage, `Drop` order inside one Rust value, aliasing rules of Rust references.

## 3. Plan per property

| id | modelled | method |
|----|----------|--------|
| C01 | mediancut, with_fixed_colors, find_best_palette, refine, remap | any-float; induction over boxes/loops |
| C02 | nearest, remap, floyd | any-float; tree indices invariant, row induction |
| C03 | remap_into, remap_into_vec, row writers with explicit uninitialised cells | any-float |
| C04 | VP tree build + search | exact and rounded; triangle inequality + ball invariants, induction on tree |
| C05 | f_pixel::diff | exact; Minkowski inequality |
| C06 | whole pipeline | exact and rounded; composition of stage lemmas |
| C07 | from_rgba/to_rgb/gamma_lut | exact (real powers) and rounded |
| C08 | fixed colours through all stages | any-float (+FltSign) |
| C09 | result state machine | any-float for float palette, exact for reported bytes |
| C10 | sort_palette | any-float permutation, exact order |
| C11 | QuantizationResult::new, target_mse | any-float control flow, exact and rounded scale; IEEE zeros and NaN for histograms without weight |
| C12 | quality_to_mse, mse_to_quality | exact (real analysis) and rounded |
| C13 | Attributes | refinement to register file over call histories |
| C14 C15 | progress callbacks as a stream of answers | trace model, induction over loops |
| C16 | for_pixels, row iterators with machine-size overflow | arithmetic |
| C17 C18 | heap model | history induction; counterexamples where the code is wrong |
| C19 C20 | histogram map | algebra of saturating sums; counterexample for C20 |
| C21 | k-means/remap with explicit schedule | commutative-monoid fold |
| C22 C40 | chunk arithmetic | arithmetic |
| C23 | dither_row | invariant over row history; rounded in RoundedFloyd |
| C24 C45 | remap | refinement to per-pixel spec |
| C25 | mediancut | permutation/partition invariants |
| C26 | kmeans | convexity |
| C27 C35 | contrast_maps, blur | pointwise window specification |
| C28 C29 C36 | image/result state machines | histories; counterexamples where the code is wrong |
| C30 | validation | any-float comparison logic |
| C31 | loops | measure |
| C32 C33 | FFI shims | finite/bit-level |
| C34 | fixed-colour limits | history; counterexample |
| C37 | floyd buffer with explicit uninitialised cells | counterexample + partial |
| C38 | u32 arithmetic | counterexample + partial |
| C39 | speed tables | finite table + monotonicity |
| C41 | to_rgb, init_int_palette | exact, every palette a caller can see; counterexample for fixed entries |
| C42 | histogram, quantize entry points | any-float; characterisation of the empty case |
| C43 | add_colors | any-float; failed call leaves the histogram as it was |
| C44 | finalize_builder | any-float partition, exact weights |
| C46 | setters | any-float case analysis |
| C47 | nearest | any-float: every index is in the tree, depth bound |
| C48 | remap entry points | any-float; all outcomes; rounded: only success or abort |
| C49…C52 | whole quantization | exact; closure of palettes under convex combination (`Mixes`) |
| C53 | k-means, refine_palette, find_best_palette | exact; last pass of k-means decides; counterexample for displaced colours |
| C54 | find_best_palette | any-float control flow over the sequence of trials |
| C55 | SIMD versions of diff | any-float (x86-64), exact (all) |
| C56 | U32Hasher, HashColor | bit-level |
| C57 | median cut as a whole | exact; relational specification `Spec.Cut` |
| C58 | whole C sessions | any float with sign laws; invariant of all objects, `Spec.Lawful` programs |
| C59 | what C calls touch | frame: any float; ranges: exact |
| C60 C23 | Floyd-Steinberg dithering | exact, rounded |
| C61 | k-means pass | exact |
| C62 | refinement of the palette on the image | exact |
| C63 | dither map | exact; specification by runs |
| C64 | contrast maps | exact; specification by neighbourhoods |
| C65 | reported colours | exact |
| C66 | early preparation for dithering | any float; refinement exact |
| C67 | independence of remaps | any float; counterexample exact |
| C68 | palette() as observer | any float; undithered remaps exact |
| C69 | no loss in the second generation | exact; rounded |
| C70 | debug builds of the search | any float (structure); exact (all), partial: fixed colours only; rounded (all, up to eleven rounds; speeds 4 to 10) |
| C71 | overflow of integers | any float |
| C72 | builds without threads | any float (loops, undithered bytes); exact (all) |
| C73 | debug builds of images, remapping, palettes | any float (lengths); exact, rounded (all), partial: NaN as output gamma |
| C74 | log messages of a quantization | any float (order, no influence); exact (numbers) |
| C75 | log messages about images and settings | any float; exact (gamma), partial: two messages are wrong |
| C76 | flushing of the log | any float |
| C77 | only finite values | rounded, partial: not true of the error before remapping; speeds 4 to 10 |
| C78 | opaque palettes in spite of rounding | rounded, partial: up to 2¹⁴ colours, speeds 4 to 10; not true of averages of many colours |
| C79 | running out of memory | any float; counterexample exact, partial: not true of images whose maps are being computed |
| C80 | running out of memory while remapping | any float; counterexamples any float and exact, partial: not true of a second try with a dither map, nor of the palette of `remapped` |
| C81 | only the pixels matter | any float |

## 4. Trusted base

* The Lean 4.33.0 kernel and the Mathlib sources it checks.
* Axioms: only Lean's standard `propext`, `Classical.choice`, `Quot.sound`. There are no axioms of our own, no
  `sorry`, no `native_decide`, no `bv_decide`. `#print axioms` of the theorems named in
  `MANIFEST.json`:
  * `propext`: `C38_huge_partial`, `C46_importance_map`, `C55_sse`.
  * `propext, Quot.sound`: `C19_zero_leaves_no_trace`, `C20_posterization_loses_weight`,
    `C20_posterization_partial`, `C22_single_chunk`, `C34_add_image_unchecked`, `C39_budget_antitone`,
    `C40_posterize_mono`, `C42_zero_importance_empty`, `C46_background`, `C56_fixed_colors`, `C56_map_keys`,
    `C72_one_chunk`, `C76_flushed`.
  * `propext, Classical.choice, Quot.sound`: all the others (314 theorems).
* The correspondence between the Rust text and the Lean definitions, which is by reading; every
  definition cites its lines.
* The contracts of std and of the crates used: `HashMap` (a map with unspecified iteration order), `select_nth_unstable`,
  sorts, `ArrayVec` (panics when full), rayon/thread_local (each item is processed by exactly one
  thread, results are merged in some order), the meaning of vector intrinsics (C55).
* For theorems marked *exact*: that rounding does not matter. This is an idealisation, not a fact about floats.

## 5. Where the code and the properties disagree

The model follows the code. Each item is something the code does that a property (or a reader)
would not expect. Names in brackets are the theorems that prove it.

1. `Image::clone` copies row pointers that still point into the *original's* pixels; dropping the
   original leaves the clone dangling (`C17_dangling`, `C17_does_not_hold`).
2. `set_output_gamma` does not reset the cached 8-bit palette, so `palette()` is stale (`C29_stale`,
   `C29_does_not_hold`).
3. `set_output_gamma(NaN)` is accepted; `Histogram::add_fixed_color` does not validate its gamma
   (`C30_does_not_hold`). Image gamma accepts 1 although the C header says less than 1.
4. `liq_set_quality` and `liq_set_min_posterization` truncate to `u8` before validating
   (`C32_truncates`); `liq_set_speed` has no magic check and `liq_image_create_custom` does not check the
   attributes (`C33_unchecked`).
5. `init_posterize_bits` re-keys with `extend`, which overwrites entries whose keys collide, so
   weight is lost (`C20_posterization_loses_weight`).
6. `Histogram::add_image` does not enforce the limit of 256 fixed colours
   (`C34_add_image_unchecked`); a failed `add_image` leaves the histogram changed.
7. A dithered remap with a user importance map and no edges overwrites the user's map
   (`C28_overwritten`).
8. A single `Break` inside `find_best_palette`/`refine_palette` does not abort and skips the
   quality check (`C11_single_break_skips_check`).
9. Reported progress is not monotone.
10. A histogram with fixed colours only has NaN error; the quality check passes and the quality
    reported is 0 (`C11_weightless`, `C11_does_not_hold`).
11. `px.width * px.height` in `u32` wraps for huge images (`C38_does_not_hold`).
12. The warm-up rows of a dithering chunk read the uninitialised `discard_row`
    (`C37_reads_uninitialised`).
13. `quantize(image)` after `remapped(image)` returns `Unsupported` when the float pixels were
    cached and the input was freed.
14. Remapping the same image twice need not give the same bytes (the palette was refined in between).
15. The transparent entry (71,112,76,0) is not posterized (`C40_transparent_not_posterized`);
    nearly transparent pixels may share histogram key 0.
16. An aborted dithered remap leaves the previous `remapped` data in the result while the output
    buffer is partly overwritten (stated in `C36_failed`).
17. `remap` uses `a < MIN_OPAQUE_A` while the dithering path uses `a > MIN_OPAQUE_A`.
18. `LIQ_OWN_ROWS` set after the histogram inputs were freed marks an empty borrowed slice as owned:
    `free` of a pointer that was never allocated, and a leak of the rows (`C18_late_rows`).
19. Dithered output depends on the number of CPUs for tall images (`C22_cpus` gives the exact
    condition for independence).
20. The hidden colour of fully transparent pixels influences the cluster index.
21. The metric's alpha weight is below the visible difference (`C05_visible_bound_fails`).
22. Posterization of a nearly transparent fixed entry changes its look
    (`C41_fixed_posterized_not_canonical`, `C09_does_not_hold`).
23. `insert_fixed_colors` overwrites the count of an existing entry with 0.
24. `liq_image_set_background` with a bad handle deallocates the background
    (`C33_set_background_consumes`); on success the box itself leaks.
25. `liq_image_quantize`/`liq_histogram_quantize` with bad handles do not write their output
    (`C33_output_unwritten`); destroy functions deallocate whatever they get
    (`C33_destroy_unchecked`).
26. Fixed colours of several images are ordered by per-image index, so with a full palette those
    of the first image may be dropped (`C08_two_images`, `C08_does_not_hold`). The comment on `HashColor`
    says the index is ignored, but the derived equality compares it.
27. With several images the histogram gamma is that of the last image. A re-keyed fixed-only
    histogram can give a (0,0,0,0) entry.
28. K-means with weight feedback reports the error measured at the mirrored pixel
    (`kmeans.rs:90-98`), not at the colour itself. It reaches the user only after a transient `Break`.
29. Duplicate fixed colours displace real colours in `with_fixed_colors` while error 0 and quality
    100 are reported (`C53_does_not_hold`).
30. The sort key of median cut puts the second channel in the low 16 bits (`mediancut.rs:112-113`),
    but its value can reach 1.4375 * 65535, so bit 16 overlaps the lowest bit of the first channel.
    Colours are ordered by the first channel only up to 2/65535 (`Spec.tick`). Harmless.
31. The comment on `optionally_prepare_for_dithering_with_background_set` (`quant.rs:74-82`) says the call is
    redundant; it refines the stored palette, so a remap without dithering reports another palette
    (`C66_does_not_hold`). It does not check the size of the buffer either: with room for another row it
    panics, although `remap_into` accepts such a buffer (`C66_large_buffer_panics`).
32. A dithered remap refines a copy of the palette only if the image has no dither map yet. The second
    remap of the same image therefore reports another palette (`C67_does_not_hold`).
33. `palette()` rounds the stored palette with the output gamma and posterization of the moment. Later remaps use
    the rounded colours even if the gamma has changed since (`C68_does_not_hold`).
34. Pixels of a fixed colour do not count. If all the colours of a histogram are fixed, every weight is 0: a debug
    build panics in median cut (`mediancut.rs:32`) unless all the colours fit and quality 100 is asked for
    (`C70_only_fixed`, `C70_does_not_hold`).
35. The number of pixels is a `u32` in `quant.rs:121` and `remap.rs:100`, a `usize` everywhere else. It is the only
    integer that can overflow (C71); images of the C functions for pixels and rows are too small for it.
36. `set_output_gamma(NaN)` is accepted (C30). The next remap or `palette()` then panics in a debug build
    (`pal.rs:337`; `C73_nan_gamma`, `C73_does_not_hold`); a release build goes on with NaN.
37. At speeds 8 to 10 "conserving memory" is printed for images of 524289 to 4194304 pixels (`image.rs:108-111`), but
    whether converted pixels are kept depends on the limit in `rows.rs:149` only: they are (`C75_conserving_fails`).
    The hint that the comment there speaks of has no effect.
38. If `for_pixels` rejects the dimensions, the log says that the buffer is not long enough, whatever its length is
    (`image.rs:334`; `C75_buffer_short_fails`).
39. "This library uses only finite values" (`lib.rs:285`): not if every colour with a count is fixed; then the error of the
    palette is 0/0 (`C77_does_not_hold`).
40. `weighed_average_color` adds up weights in `f32` (`mediancut.rs:316-328`). For more than about 54000 light colours beside a
    heavy one the sum of weights and the weighted sum of alphas drift apart by more than 1/256, and opaque colours average
    to alpha 254 (`C78_average_does_not_hold`). `finalize_builder` and k-means add up in `f64`.
41. `contrast_maps` attaches a zeroed importance map to the image before it makes its other requests for memory
    (`image.rs:246-254`, `291`). If one of them is refused, the zeros stay; the next `add_image` takes them for the user's map
    and counts no pixel, so quantizing this image fails with `Unsupported` from then on (`C79_spoiled`, `C79_again_false`).
42. `palette_vec` ignores that `try_reserve_exact` fails and returns an empty vector (`quant.rs:276-283`), so `remapped` and
    `remap_into_vec` succeed with indices and without a palette (`C80_remapped_false`). Memory that runs out after the dither
    map was made changes the palette of the next remap, like a remap that succeeded (`C67_does_not_hold`; `C80_again_false`).

## 6. Mutation testing

A scratch copy of the Lean project outside `/verif` is edited one definition at a time with a
plausible bug (wrong bound, wrong comparison, missing branch, swapped operands, missing update…).
The whole project is rebuilt with errors in proofs tolerated and the theorems of `MANIFEST.json` that no
longer check are collected. If the claim the bug breaks still checks, the property is tightened
or a new property is added. Every attempt is one line of `seeded/LOG.jsonl`.

A failed theorem is weaker evidence than it looks: a helper lemma may break although the
statement is still true. So for each attempt the claim that should break was written
down *before* the run, and the log lists both.
