import Verif.Lemmas.User

/-! # Properties of remapping that hold for every kind of float arithmetic

C01 (remapping part), C02, C03, C15 (remapping part), C28, C36, C37, C48 -/

set_option linter.unusedSectionVars false

namespace Verif
open Flt Spec

variable {F : Type} [Flt F]

theorem flatten_uniform_length {α : Type} {w : ℕ} {rows : List (List α)} (h : ∀ r ∈ rows, r.length = w) :
    rows.flatten.length = rows.length * w := by
  induction rows with
  | nil => simp
  | cons r rs ih =>
    rw [List.flatten_cons, List.length_append, h r (by simp), ih fun x hx => h x (by simp [hx]), List.length_cons,
      Nat.add_mul]
    omega

namespace Spec

/-- the first `n` bytes of a buffer have been written and are smaller than `m`; `none` is a byte nobody has written -/
def Filled (n m : ℕ) (buf : List (Option UInt8)) : Prop := ∀ i < n, ∃ b : UInt8, buf[i]? = some (some b) ∧ b.toNat < m

end Spec

/-- the rows written, as the beginning of the buffer -/
theorem RemapIntoSpec.buffer {env : RemapEnv F} {q : QuantizationResult F} {img : Image F} {buf : List (Option UInt8)}
    {log : List F} {r : RemapIntoOut F} (h : RemapIntoSpec env q img buf log r) (hb : img.width * img.height ≤ buf.length) :
    r.buf.length = buf.length ∧ r.buf.drop (img.width * img.height) = buf.drop (img.width * img.height) ∧
    (r.res = .ok () → Filled (img.width * img.height) q.palette.length r.buf) := by
  obtain ⟨s, d, e1, e2, _, _, e5, _⟩ := h.run hb
  have hh : s.image.height = img.height := d.samePx.height
  have hw : s.image.width = img.width := d.samePx.width
  have hlen : s.out.flatten.length = img.width * img.height := by
    rw [flatten_uniform_length d.out.2, d.out.1, hh, hw, Nat.mul_comm]
  refine ⟨?_, ?_, fun hok => ?_⟩
  · rw [e5, List.length_append, hlen, List.length_drop]; omega
  · rw [e5, ← hlen, List.drop_left]
  · obtain ⟨_, _, _, hall⟩ := d.done hok
    intro i hi
    rw [e5, List.getElem?_append_left (by rw [hlen]; exact hi), List.getElem?_eq_getElem (by rw [hlen]; exact hi)]
    obtain ⟨row, hrow, hmem⟩ := List.mem_flatten.mp (List.getElem_mem (show i < s.out.flatten.length by rw [hlen]; exact hi))
    obtain ⟨b, hb, hlt⟩ := hall row hrow _ hmem
    exact ⟨b, by rw [← hb], hlt⟩

/-- a successful call has a large enough buffer -/
theorem RemapIntoSpec.big {env : RemapEnv F} {q : QuantizationResult F} {img : Image F} {buf : List (Option UInt8)}
    {log : List F} {r : RemapIntoOut F} (h : RemapIntoSpec env q img buf log r) (hok : r.res = .ok ()) :
    img.width * img.height ≤ buf.length := by
  by_contra hlt
  rw [h.small (by omega)] at hok
  cases hok

section user
variable [FltSign F]

/-- the specification holds for everything a program can get hold of -/
theorem user_spec (env : RemapEnv F) {q : QuantizationResult F} {img : Image F} (hq : UserResult q) (hi : UserImage img)
    (buf : List (Option UInt8)) (log : List F) : RemapIntoSpec env q img buf log (remapInto env q img buf log) :=
  remapInto_spec env buf log hq.good hi.good

/-! ## C01: remapping keeps the number of colours -/

/-- **C01** (remapping; any float arithmetic). However a remap ends, the number of colours of the palette is still between
1 and 256 and still the same, and `palette()` reports that many colours before and after. -/
theorem C01_remap_keeps_size (env : RemapEnv F) {q : QuantizationResult F} {img : Image F} (hq : UserResult q)
    (hi : UserImage img) (buf : List (Option UInt8)) (log : List F) :
    let r := remapInto env q img buf log
    1 ≤ q.palette.length ∧ q.palette.length ≤ 256 ∧ r.quant.palette.length = q.palette.length ∧
    q.getPalette.2.length = q.palette.length ∧ r.quant.getPalette.2.length = q.palette.length := by
  intro r
  have spec := user_spec env hq hi buf log
  have hp : r.quant.palette.length = q.palette.length := by
    by_cases hb : buf.length < img.width * img.height
    · show (remapInto env q img buf log).quant.palette.length = _
      rw [spec.small hb]
    · obtain ⟨s, d, e1, _⟩ := spec.run (by omega)
      show (remapInto env q img buf log).quant.palette.length = _
      rw [e1]
      by_cases hok : (remapInto env q img buf log).res = .ok ()
      · obtain ⟨re, hre, _⟩ := d.done hok; rw [hre]; rfl
      · rw [d.failed hok]; rfl
  refine ⟨hq.good.pos, hq.good.le, hp, (getPalette_good hq.good).2.1, ?_⟩
  rw [(getPalette_good (spec.good hq.good hi.good).1).2.1]
  exact hp

/-! ## C02, C03: what is written -/

/-- **C02, C03** (any float arithmetic). After a successful `remap_into` each of the first `width * height` bytes has been
written and is smaller than the length of the palette that the result reports afterwards. -/
theorem C02_indices_valid (env : RemapEnv F) {q : QuantizationResult F} {img : Image F} (hq : UserResult q)
    (hi : UserImage img) (buf : List (Option UInt8)) (log : List F)
    (hok : (remapInto env q img buf log).res = .ok ()) :
    let r := remapInto env q img buf log
    Filled (img.width * img.height) r.quant.getPalette.2.length r.buf := by
  intro r
  have spec := user_spec env hq hi buf log
  rw [(C01_remap_keeps_size env hq hi buf log).2.2.2.2]
  exact (spec.buffer (spec.big hok)).2.2 hok

/-- **C03** (any float arithmetic). A buffer that is too short is rejected and nothing changes; any other buffer keeps
its length and all the bytes after the first `width * height`, also if the remap fails. -/
theorem C03_buffer (env : RemapEnv F) {q : QuantizationResult F} {img : Image F} (hq : UserResult q)
    (hi : UserImage img) (buf : List (Option UInt8)) (log : List F) :
    let r := remapInto env q img buf log
    (buf.length < img.width * img.height →
      r.res = .error (.err .bufferTooSmall) ∧ r.buf = buf ∧ r.quant = q ∧ r.image = img ∧ r.log = log) ∧
    (img.width * img.height ≤ buf.length → r.res ≠ .error (.err .bufferTooSmall) ∧ r.buf.length = buf.length ∧
      r.buf.drop (img.width * img.height) = buf.drop (img.width * img.height)) := by
  intro r
  have spec := user_spec env hq hi buf log
  refine ⟨fun hb => ?_, fun hb => ?_⟩
  · show (remapInto env q img buf log).res = _ ∧ (remapInto env q img buf log).buf = _ ∧
      (remapInto env q img buf log).quant = _ ∧ (remapInto env q img buf log).image = _ ∧ (remapInto env q img buf log).log = _
    rw [spec.small hb]; exact ⟨rfl, rfl, rfl, rfl, rfl⟩
  · refine ⟨fun he => ?_, (spec.buffer hb).1, (spec.buffer hb).2.1⟩
    obtain ⟨s, d, _⟩ := spec.run hb
    rcases d.outcome with ⟨⟨x, h⟩, _⟩ | ⟨h, _⟩ | ⟨h, _⟩ <;>
      · rw [show (remapInto env q img buf log).res = .error (.err .bufferTooSmall) from he] at h; cases h

/-- **C02, C03** (any float arithmetic). `remapped` returns exactly `width * height` bytes, all written, and a palette of
which each byte is a valid index. -/
theorem C03_remapped (env : RemapEnv F) {q : QuantizationResult F} {img : Image F} (hq : UserResult q)
    (hi : UserImage img) (log : List F) (pal : List RGBA) (bytes : List (Option UInt8)) (r : RemapIntoOut F)
    (h : remapped env q img log = (.ok (pal, bytes), r)) :
    bytes.length = img.width * img.height ∧ pal.length = q.palette.length ∧
    Filled (img.width * img.height) pal.length bytes ∧ ∀ o ∈ bytes, ∃ b : UInt8, o = some b ∧ b.toNat < pal.length := by
  have spec := user_spec env hq hi (List.replicate (img.width * img.height) none) log
  have hlen := (spec.buffer (by simp)).1
  have hsize := C01_remap_keeps_size env hq hi (List.replicate (img.width * img.height) none) log
  have hval := C02_indices_valid env hq hi (List.replicate (img.width * img.height) none) log
  unfold remapped at h
  simp only at h
  generalize remapInto env q img (List.replicate (img.width * img.height) none) log = x at *
  cases hres : x.res with
  | error e => rw [hres] at h; simp at h
  | ok u =>
    rw [hres] at h
    simp only [Prod.mk.injEq, Except.ok.injEq] at h
    obtain ⟨⟨rfl, rfl⟩, -⟩ := h
    have hl : x.buf.length = img.width * img.height := by rw [hlen]; simp
    have hf := hval hres
    refine ⟨hl, hsize.2.2.2.2, hf, fun o ho => ?_⟩
    obtain ⟨i, hi', rfl⟩ := List.mem_iff_getElem.mp ho
    obtain ⟨b, hb, hlt⟩ := hf i (by omega)
    rw [List.getElem?_eq_getElem hi'] at hb
    exact ⟨b, by simpa using hb, hlt⟩

/-! ## C36: failed and successful remaps -/

/-- **C36** (any float arithmetic). A remap that fails leaves the result exactly as it was. -/
theorem C36_failed (env : RemapEnv F) {q : QuantizationResult F} {img : Image F} (hq : UserResult q)
    (hi : UserImage img) (buf : List (Option UInt8)) (log : List F)
    (hf : (remapInto env q img buf log).res ≠ .ok ()) : (remapInto env q img buf log).quant = q := by
  have spec := user_spec env hq hi buf log
  by_cases hb : buf.length < img.width * img.height
  · rw [spec.small hb]
  · obtain ⟨s, d, e1, _⟩ := spec.run (by omega)
    rw [e1, d.failed hf]; rfl

/-- **C36** (any float arithmetic). A successful remap replaces the remembered remap and nothing else; asking for the
palette returns its palette and changes nothing, however often. The reported remapping error and quality are those of that
remap, or those of the palette if it measured none. Changing the dithering level or the gamma forgets it. -/
theorem C36_succeeded (env : RemapEnv F) {q : QuantizationResult F} {img : Image F} (hq : UserResult q)
    (hi : UserImage img) (buf : List (Option UInt8)) (log : List F)
    (hok : (remapInto env q img buf log).res = .ok ()) :
    ∃ re : Remapped F, (remapInto env q img buf log).quant = { q with remapped := some re } ∧
      (remapInto env q img buf log).quant.getPalette = ((remapInto env q img buf log).quant, re.intPalette) ∧
      (remapInto env q img buf log).quant.remappingError = (re.paletteError <|> q.paletteError).map mseToStandardMse ∧
      (remapInto env q img buf log).quant.remappingQuality = (re.paletteError <|> q.paletteError).map mseToQuality ∧
      ∀ v q', ((remapInto env q img buf log).quant.setDitheringLevel v = .ok q' ∨
        (remapInto env q img buf log).quant.setOutputGamma v = .ok q') → q'.remapped = none := by
  have spec := user_spec env hq hi buf log
  obtain ⟨s, d, e1, _⟩ := spec.run (spec.big hok)
  obtain ⟨re, hre, _⟩ := d.done hok
  refine ⟨re, by rw [e1, hre]; rfl, ?_, ?_, ?_, ?_⟩
  · rw [e1, hre]; rfl
  · rw [e1, hre]; unfold QuantizationResult.remappingError; cases h : re.paletteError <;> (simp [h]; try rfl)
  · rw [e1, hre]; unfold QuantizationResult.remappingQuality; cases h : re.paletteError <;> (simp [h]; try rfl)
  · intro v q' h
    rcases h with h | h
    · unfold QuantizationResult.setDitheringLevel at h
      split at h
      · cases h; rfl
      · cases h
    · unfold QuantizationResult.setOutputGamma at h
      split at h
      · cases h
      · cases h; rfl

/-! ## C48: how a remap can end -/

/-- **C48** (any float arithmetic). With a large enough buffer a remap succeeds, or is aborted, or reports lack of memory.
It is aborted exactly when the callback answers a report with "break", which then is the last report; lack of memory is
only reported if a float is not a number. No other error and no panic can happen. -/
theorem C48_outcomes (env : RemapEnv F) {q : QuantizationResult F} {img : Image F} (hq : UserResult q)
    (hi : UserImage img) (buf : List (Option UInt8)) (log : List F) (hb : img.width * img.height ≤ buf.length) :
    let r := remapInto env q img buf log
    ∃ new, r.log = log ++ new ∧
      ((r.res = .ok () ∧ ∀ f, q.progressCallback = some f → ∀ k < new.length, f (log ++ new.take (k + 1)) = false) ∨
       (r.res = .error (.err .aborted) ∧ new ≠ [] ∧ ∃ f, q.progressCallback = some f ∧ f r.log = true ∧
        ∀ k < new.length - 1, f (log ++ new.take (k + 1)) = false) ∨
       (r.res = .error (.err .outOfMemory) ∧ (∃ x : F, isNan x = true) ∧
        ∀ f, q.progressCallback = some f → ∀ k < new.length, f (log ++ new.take (k + 1)) = false)) := by
  intro r
  have spec := user_spec env hq hi buf log
  obtain ⟨s, d, _, _, e3, _⟩ := spec.run hb
  have conv : ∀ {l : List F}, Ends q.progressCallback log l false → ∃ new, l = log ++ new ∧
      ∀ f, q.progressCallback = some f → ∀ k < new.length, f (log ++ new.take (k + 1)) = false := by
    rintro l ⟨new, h1, h2, _⟩
    refine ⟨new, h1, fun f hf k hk => ?_⟩
    have := h2 k hk
    rw [hf] at this
    simpa [answered] using this
  rcases d.outcome with ⟨⟨x, h⟩, he⟩ | ⟨h, he⟩ | ⟨h, he, hn⟩
  · obtain ⟨new, h1, h2⟩ := conv he
    exact ⟨new, by rw [← h1]; exact e3, .inl ⟨h, h2⟩⟩
  · obtain ⟨f, hf, hlast, _, _⟩ := he.broke
    obtain ⟨new, h1, h2, h3⟩ := he
    refine ⟨new, e3.trans h1, .inr (.inl ⟨h, h3 rfl, f, hf, by show f (remapInto env q img buf log).log = true; rw [e3]; exact hlast, fun k hk => ?_⟩)⟩
    have := h2 k (by omega)
    have hf' : q.progressCallback = some f := hf
    rw [show (remapStart q img buf log).quant.progressCallback = some f from hf'] at this
    simp only [answered, Bool.true_and] at this
    rw [show (remapStart q img buf log).log = log from rfl] at this
    rw [this, decide_eq_false_iff_not]; omega
  · obtain ⟨new, h1, h2⟩ := conv he
    exact ⟨new, by rw [← h1]; exact e3, .inr (.inr ⟨h, hn, h2⟩)⟩

/-- **C48** (any float arithmetic). If the arithmetic has no NaN and there is no callback, every remap with a large
enough buffer succeeds. -/
theorem C48_succeeds (env : RemapEnv F) {q : QuantizationResult F} {img : Image F} (hq : UserResult q)
    (hi : UserImage img) (buf : List (Option UInt8)) (log : List F) (hb : img.width * img.height ≤ buf.length)
    (hcb : q.progressCallback = none) (hnan : ∀ x : F, isNan x = false) :
    (remapInto env q img buf log).res = .ok () := by
  obtain ⟨new, _, h | ⟨_, _, f, hf, _⟩ | ⟨_, ⟨x, hx⟩, _⟩⟩ := C48_outcomes env hq hi buf log hb
  · exact h.1
  · rw [hcb] at hf; cases hf
  · rw [hnan] at hx; cases hx

/-! ## C28: the user's importance map -/

/-- **C28, partial** (any float arithmetic). Counting the colours of an image, and thus quantizing it, keeps an importance
map that is set. Remapping keeps it unless all of this holds: dithering is on, a dither map is made (the palette asks for
one and the image has none yet), the image has no edge map, and the image is of a size for which contrast maps are made.
Missing: the property itself for that case, in which it does not hold (`C28_overwritten`). -/
theorem C28_map_kept_partial {q : QuantizationResult F} {img : Image F} {m : List UInt8} (hq : UserResult q)
    (hi : UserImage img) (hm : img.importanceMap = some m) :
    (∀ (ho : HashOrder) (h : Histogram F) (attr : Attr F) (log : List F),
      (h.addImage ho attr img log).1.2.2.importanceMap = some m) ∧
    (∀ (env : Env F) (attr : Attr F) (log : List F), (quantizeImage env attr img log).1.2.importanceMap = some m) ∧
    (∀ (env : RemapEnv F) (buf : List (Option UInt8)) (log : List F),
      eq q.ditherLevel (lit32 0) = true ∨ generatesDitherMap q.useDitherMap img = false ∨ img.edges.isSome ∨
        Image.skipsContrastMaps img.width img.height = true →
      (remapInto env q img buf log).image.importanceMap = some m) := by
  have hadd : ∀ (ho : HashOrder) (h : Histogram F) (attr : Attr F) (log : List F),
      (h.addImage ho attr img log).1.2.2.importanceMap = some m := by
    intro ho h attr log
    rw [(addImage_image ho h attr log hi.good).2 (by rw [hm]; rfl)]; exact hm
  refine ⟨hadd, fun env attr log => ?_, fun env buf log hc => ?_⟩
  · have := hadd env.ho (Histogram.new attr) attr log
    unfold quantizeImage
    generalize (Histogram.new attr).addImage env.ho attr img log = x at *
    obtain ⟨⟨res, h, i⟩, log'⟩ := x
    cases res with
    | error e => exact this
    | ok u => exact this
  · have spec := user_spec env hq hi buf log
    by_cases hb : buf.length < img.width * img.height
    · rw [spec.small hb]; exact hm
    · obtain ⟨s, d, _, e2, _⟩ := spec.run (by omega)
      rw [e2]
      rcases d.importance with h | ⟨a, b, c, e⟩
      · rw [h]; exact hm
      · have a' : eq q.ditherLevel (lit32 0) = false := a
        have b' : img.edges = none := b
        have c' : generatesDitherMap q.useDitherMap img = true := c
        have e' : Image.skipsContrastMaps img.width img.height = false := e
        rw [a', b', c', e'] at hc
        simp at hc

/-! ## C37: reading uninitialised output -/

/-- **C37, partial** (any float arithmetic). A remap reads back only output bytes that it has written before, if
dithering is off, or no dither map is made, or the rows are not divided into several chunks (which is so for a height of
at most 128, on one CPU, and at speed 1).
Missing: the property itself for the other cases, in which it does not hold (`C37_reads_uninitialised`). -/
theorem C37_initialised_partial (env : RemapEnv F) {q : QuantizationResult F} {img : Image F} (hq : UserResult q)
    (hi : UserImage img) (buf : List (Option UInt8)) (log : List F)
    (hc : eq q.ditherLevel (lit32 0) = true ∨ generatesDitherMap q.useDitherMap img = false ∨
      q.singleThreadedDithering = true ∨ img.height ≤ 128 ∨ env.cpus = 1) :
    (remapInto env q img buf log).uninit = false := by
  have spec := user_spec env hq hi buf log
  by_cases hb : buf.length < img.width * img.height
  · rw [spec.small hb]
  · obtain ⟨s, d, _, _, _, e4, _⟩ := spec.run (by omega)
    rw [e4]
    by_contra hu
    rcases d.uninit (by simpa using hu) with h | ⟨a, b, c⟩
    · cases h
    · have a' : eq q.ditherLevel (lit32 0) = false := a
      have b' : generatesDitherMap q.useDitherMap img = true := b
      have c' : ditherChunks q.singleThreadedDithering img.width img.height env.cpus ≠ 1 := c
      obtain ⟨_, _, h128, hsingle⟩ := ditherChunks_many env.cpus_pos c'
      rcases hc with h | h | h | h | h
      · rw [a'] at h; cases h
      · rw [b'] at h; cases h
      · rw [hsingle] at h; cases h
      · omega
      · apply c'
        have := ditherChunks_pos q.singleThreadedDithering img.width img.height env.cpus env.cpus_pos
        unfold ditherChunks at this ⊢
        rw [h] at this ⊢
        split
        · rfl
        next hs => rw [if_neg hs] at this; omega

/-- **C37, negation** (any float arithmetic). In the cases left open by `C37_initialised_partial` every successful remap
of an image without a background reads bytes that nobody has written. -/
theorem C37_reads_uninitialised (env : RemapEnv F) {q : QuantizationResult F} {img : Image F} (hq : UserResult q)
    (hi : UserImage img) (buf : List (Option UInt8)) (log : List F)
    (hl : eq q.ditherLevel (lit32 0) = false) (hgen : generatesDitherMap q.useDitherMap img = true)
    (hs : q.singleThreadedDithering = false) (hh : 128 < img.height) (hcpu : 2 ≤ env.cpus)
    (hbg : img.background = none) (hok : (remapInto env q img buf log).res = .ok ()) :
    (remapInto env q img buf log).uninit = true := by
  have spec := user_spec env hq hi buf log
  obtain ⟨s, d, _, _, _, e4, _⟩ := spec.run (spec.big hok)
  rw [e4]
  refine d.reads hok hl hgen hbg ?_
  show ditherChunks q.singleThreadedDithering img.width img.height env.cpus ≠ 1
  unfold ditherChunks
  rw [hs, if_neg (by simp), if_pos hh]
  omega

/-- **C28, negation** (any float arithmetic). In the cases left open by `C28_map_kept_partial` a successful remap replaces
the importance map by one that is computed from the image. -/
theorem C28_overwritten (env : RemapEnv F) {q : QuantizationResult F} {img : Image F} (hq : UserResult q)
    (hi : UserImage img) (buf : List (Option UInt8)) (log : List F) (hl : eq q.ditherLevel (lit32 0) = false)
    (hgen : generatesDitherMap q.useDitherMap img = true) (he : img.edges = none)
    (hs : Image.skipsContrastMaps img.width img.height = false) (hok : (remapInto env q img buf log).res = .ok ()) :
    ∃ m, (remapInto env q img buf log).image.importanceMap = some m ∧
      ∀ lo, (∀ a b c d e : FPixel F, lo ≤ (Image.noisePixel a b c d e).1.toNat) → ∀ v ∈ m, lo ≤ v.toNat := by
  have spec := user_spec env hq hi buf log
  obtain ⟨s, d, _, e2, _⟩ := spec.run (spec.big hok)
  rw [e2]
  exact d.overwritten hok hl he hgen hs

end user

/-! ## C15: progress values of remapping -/

/-- **C15** (remapping; exact arithmetic). Every value a remap reports lies between 0 and 100. -/
theorem C15_remap_percent (env : RemapEnv ℝ) {q : QuantizationResult ℝ} {img : Image ℝ} (hq : UserResult q)
    (hi : UserImage img) (buf : List (Option UInt8)) (log : List ℝ) :
    ∃ new, (remapInto env q img buf log).log = log ++ new ∧ ∀ v ∈ new, 0 ≤ v ∧ v ≤ 100 := by
  have spec := user_spec env hq hi buf log
  by_cases hb : buf.length < img.width * img.height
  · rw [spec.small hb]; exact ⟨[], by simp, by simp⟩
  · obtain ⟨s, d, _, _, e3, _⟩ := spec.run (by omega)
    obtain ⟨new, h1, h2⟩ := d.log
    refine ⟨new, e3.trans h1, fun v hv => ?_⟩
    have hs : (0 : ℝ) ≤ (remapStage1 q.useDitherMap : ℕ) ∧ ((remapStage1 q.useDitherMap : ℕ) : ℝ) ≤ 20 := by
      unfold remapStage1; split <;> norm_num
    have hpos : (0 : ℝ) < (img.height : ℕ) := by exact_mod_cast hi.good.height_pos
    rcases h2 v hv with h | h | ⟨start, hlt, h⟩
    · have h' : v = ((remapStage1 q.useDitherMap : ℕ) : ℝ) * (1 / 4) := by
        rw [h]; simp only [real_mul32, real_lit32]; push_cast; norm_num; rfl
      constructor <;> linarith [hs.1, hs.2]
    · have h' : v = ((remapStage1 q.useDitherMap : ℕ) : ℝ) * (1 / 2) := by
        rw [h]; simp only [real_mul32, real_lit32]; push_cast; norm_num; rfl
      constructor <;> linarith [hs.1, hs.2]
    · have h' : v = ((remapStage1 q.useDitherMap : ℕ) : ℝ) +
          (start : ℝ) * (100 - ((remapStage1 q.useDitherMap : ℕ) : ℝ)) / (img.height : ℕ) := by
        rw [h]; unfold ditherProgress
        simp only [real_add32, real_mul32, real_div32, real_sub32, real_lit32]; push_cast; rfl
      have hst : (start : ℝ) < (img.height : ℕ) := by exact_mod_cast hlt
      have h0 : (0 : ℝ) ≤ start := by positivity
      have hf : (start : ℝ) * (100 - ((remapStage1 q.useDitherMap : ℕ) : ℝ)) / (img.height : ℕ) ≤
          100 - ((remapStage1 q.useDitherMap : ℕ) : ℝ) := by
        rw [div_le_iff₀ hpos]; nlinarith [hs.1, hs.2]
      have hg : 0 ≤ (start : ℝ) * (100 - ((remapStage1 q.useDitherMap : ℕ) : ℝ)) / (img.height : ℕ) := by
        apply div_nonneg _ hpos.le; nlinarith [hs.1, hs.2]
      constructor <;> linarith [hs.1, hs.2]

/-! ## Concrete cases -/

/-- a result with the default settings -/
theorem example_result [FltSign F] : ∃ q : QuantizationResult F, UserResult q ∧ q.progressCallback = none ∧
    q.ditherLevel = lit32 1 ∧ q.useDitherMap = .enabled ∧ q.singleThreadedDithering = false := by
  obtain ⟨r, log', e⟩ := C42_succeeds (F := F) Env.simple [] exampleHistogram true [] rfl
    (Or.inl (by simp [exampleHistogram]))
  refine ⟨r, .quantized _ _ _ _ _ _ _ e, ?_⟩
  rcases user_outcome Env.simple [] (none : Option (List F → Bool)) exampleHistogram true [] with ⟨-, -, e'⟩ | ⟨-, e'⟩
  · rw [e] at e'; cases e'
  · rw [e] at e'
    cases e' with
    | ok _ _ _ _ hr => rw [hr.rest]; exact ⟨rfl, rfl, rfl, rfl⟩

/-- an image of any reasonable size -/
theorem example_image (f : ℕ → ℕ → RGBA) {w h : ℕ} (hw : 0 < w) (hh : 0 < h) (hw' : w < 1000) (hh' : h < 1000) :
    ∃ img : Image ℝ, UserImage img ∧ img.width = w ∧ img.height = h ∧ img.importanceMap = none ∧ img.edges = none ∧
      img.ditherMap = none ∧ img.background = none := by
  have hsize : Image.checkImageSize w h = true := by
    unfold Image.checkImageSize
    rw [if_neg (by omega), if_neg]
    rintro (h1 | h1)
    · omega
    · have : 1000 ≤ (2 ^ 63 - 1) / 16 / h := by
        rw [Nat.le_div_iff_mul_le hh]; omega
      omega
  have : ∃ img : Image ℝ, Image.newFn f w h 0 = .ok img ∧ img.importanceMap = none ∧ img.edges = none ∧
      img.ditherMap = none ∧ img.background = none := by
    unfold Image.newFn Image.toU32
    rw [if_pos (by omega), if_pos (by omega)]
    simp only [bind, Except.bind]
    unfold Image.newInternal
    rw [hsize]
    simp only [Bool.not_true, Bool.false_eq_true, if_false]
    norm_num
  obtain ⟨img, e, h⟩ := this
  exact ⟨img, .fromCallback e, (newFn_good e).2.1, (newFn_good e).2.2.1, h⟩

theorem generates_small (img : Image ℝ) (hs : img.width * img.height ≤ 4000000) (hd : img.ditherMap = none) :
    generatesDitherMap .enabled img = true := by
  have hs' : img.px.width * img.px.height ≤ 4000000 := hs
  unfold generatesDitherMap
  have : img.px.width * img.px.height % 4294967296 ≤ 4000000 := (Nat.mod_le _ _).trans hs'
  simp [this, hd]

/-- **C37 does not hold**: with the default settings and two CPUs, remapping an image of 1 x 129 pixels reads a byte that
nobody has written. -/
theorem C37_does_not_hold : ∃ (env : RemapEnv ℝ) (q : QuantizationResult ℝ) (img : Image ℝ), UserResult q ∧ UserImage img ∧
    (remapInto env q img (List.replicate 129 none) []).res = .ok () ∧
    (remapInto env q img (List.replicate 129 none) []).uninit = true := by
  obtain ⟨q, hq, h1, h2, h3, h4⟩ := example_result (F := ℝ)
  obtain ⟨img, hi, w, h, _, _, hd, hb⟩ := example_image (fun _ _ => ⟨1, 2, 3, 255⟩) (w := 1) (h := 129) (by omega) (by omega)
    (by omega) (by omega)
  have hok := C48_succeeds { (RemapEnv.simple : RemapEnv ℝ) with cpus := 2, cpus_pos := by omega } hq hi
    (List.replicate 129 none) [] (by rw [w, h]; simp) h1 (fun x => by simp)
  refine ⟨_, q, img, hq, hi, hok, ?_⟩
  refine C37_reads_uninitialised _ hq hi _ _ ?_ ?_ h4 (by omega) (by simp) hb hok
  · rw [h2]; simp
  · rw [h3]; exact generates_small img (by rw [w, h]; omega) hd

/-- **C28 does not hold**: with the default settings, remapping an image of 4 x 4 pixels replaces the importance map that
the user set. -/
theorem C28_does_not_hold : ∃ (env : RemapEnv ℝ) (q : QuantizationResult ℝ) (img : Image ℝ) (m : List UInt8), UserResult q ∧
    UserImage img ∧ img.importanceMap = some m ∧ (remapInto env q img (List.replicate 16 none) []).res = .ok () ∧
    (remapInto env q img (List.replicate 16 none) []).image.importanceMap ≠ some m := by
  obtain ⟨q, hq, h1, h2, h3, h4⟩ := example_result (F := ℝ)
  obtain ⟨img, hi, w, h, _, he, hd, hb⟩ := example_image (fun _ _ => ⟨1, 2, 3, 255⟩) (w := 4) (h := 4) (by omega) (by omega)
    (by omega) (by omega)
  have hset : img.setImportanceMap (List.replicate 16 0) = .ok { img with importanceMap := some (List.replicate 16 0) } := by
    unfold Image.setImportanceMap
    rw [if_neg (by rw [w, h]; simp)]
  have hi' := UserImage.importance hi hset
  have w' : ({ img with importanceMap := some (List.replicate 16 0) } : Image ℝ).width = 4 := w
  have h' : ({ img with importanceMap := some (List.replicate 16 0) } : Image ℝ).height = 4 := h
  have hok := C48_succeeds (RemapEnv.simple : RemapEnv ℝ) hq hi' (List.replicate 16 none) [] (by rw [w', h']; simp) h1
    (fun x => by simp)
  refine ⟨_, q, _, _, hq, hi', rfl, hok, ?_⟩
  obtain ⟨m, hm, hlo⟩ := C28_overwritten RemapEnv.simple hq hi' (List.replicate 16 none) [] (by rw [h2]; simp)
    (by rw [h3]; exact generates_small _ (by rw [w', h']; omega) hd) he
    (by rw [w', h']; decide) hok
  rw [hm]
  intro hx
  cases hx
  have := hlo 80 noise_ge 0 (by simp)
  simp at this

/-- the hypotheses of the theorems above can be met: a dithered remap of 3 x 2 pixels into a buffer with room to spare -/
example : ∃ (q : QuantizationResult ℝ) (img : Image ℝ), UserResult q ∧ UserImage img ∧
    (remapInto RemapEnv.simple q img (List.replicate 9 none) []).res = .ok () ∧
    Filled 6 q.palette.length (remapInto RemapEnv.simple q img (List.replicate 9 none) []).buf ∧
    (remapInto RemapEnv.simple q img (List.replicate 5 none) []).res = .error (.err .bufferTooSmall) ∧
    (remapInto RemapEnv.simple q img (List.replicate 9 none) []).uninit = false := by
  obtain ⟨q, hq, h1, h2, h3, h4⟩ := example_result (F := ℝ)
  obtain ⟨img, hi, w, h, _, _, hd, hb⟩ := example_image (fun y x => ⟨UInt8.ofNat (100 * x), UInt8.ofNat y, 3, 255⟩) (w := 3) (h := 2)
    (by omega) (by omega) (by omega) (by omega)
  have hok := C48_succeeds (RemapEnv.simple : RemapEnv ℝ) hq hi (List.replicate 9 none) [] (by rw [w, h]; simp) h1
    (fun x => by simp)
  refine ⟨q, img, hq, hi, hok, ?_, ?_, ?_⟩
  · have := C02_indices_valid RemapEnv.simple hq hi _ _ hok
    dsimp only at this
    rw [(C01_remap_keeps_size RemapEnv.simple hq hi _ _).2.2.2.2, w, h] at this
    exact this
  · exact ((C03_buffer RemapEnv.simple hq hi _ _).1 (by rw [w, h]; simp)).1
  · exact C37_initialised_partial RemapEnv.simple hq hi _ _ (.inr (.inr (.inr (.inl (by omega)))))

/-- an aborted remap -/
example : ∃ (q : QuantizationResult ℝ) (img : Image ℝ), UserResult q ∧ UserImage img ∧
    (remapInto RemapEnv.simple q img (List.replicate 6 none) []).res = .error (.err .aborted) := by
  obtain ⟨q, hq, -⟩ := example_result (F := ℝ)
  obtain ⟨img, hi, w, h, _⟩ := example_image (fun _ _ => ⟨1, 2, 3, 255⟩) (w := 3) (h := 2) (by omega) (by omega)
    (by omega) (by omega)
  refine ⟨_, img, .callback (some fun _ => true) hq, hi, ?_⟩
  unfold remapInto
  rw [w, h]
  simp [writeRemapped, progress_eq, answered]

end Verif
