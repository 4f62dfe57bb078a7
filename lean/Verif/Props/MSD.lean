import Verif.Lemmas.MSD
import Verif.Props.Box
import Verif.Spec.MSD

/-!
# Properties C41, C42: mean squared displacement
-/

namespace Freud
open Spec MSD

/-- **C41**: in window mode, entry `m` of the MSD of a particle is the mean over all windows of
length `m` of the squared displacement, for every number of frames and every trajectory. -/
theorem C41_window (r : List (Vec3 ℝ)) :
    windowColumn r = (List.range r.length).map (windowMSD r) := by
  rcases Nat.eq_zero_or_pos r.length with h0 | hpos
  · have : r = [] := List.length_eq_zero_iff.mp h0
    subst this; simp [windowColumn, autocorrelation, fft, ifft]
  unfold windowColumn
  simp only
  rw [s1_fold r.length (r.map (fun v => v.x ^ 2 + v.y ^ 2 + v.z ^ 2)) (by simp) hpos r.length le_rfl]
  simp only
  rw [autocorrelation_eq, autocorrelation_eq, autocorrelation_eq]
  simp only [List.length_map]
  refine List.ext_getElem? fun t => ?_
  rcases Nat.lt_or_ge t r.length with ht | ht
  · simp only [List.getElem?_zipWith, List.getElem?_map, List.getElem?_range ht, Option.map_some,
      Option.some.injEq]
    unfold windowMSD windowSum
    rw [list_range_sum, ← add_div, ← add_div, mul_div_assoc', ← sub_div]
    congr 1
    rw [← Finset.sum_add_distrib, ← Finset.sum_add_distrib, Finset.mul_sum, ← Finset.sum_sub_distrib]
    refine Finset.sum_congr rfl fun k hk => ?_
    have hk := Finset.mem_range.mp hk
    beta_reduce
    have e : ∀ (g : Vec3 ℝ → ℝ) (j : ℕ), j < r.length → (r.map g).getD j 0 = g (posAt r j) := by
      intro g j hj
      unfold posAt
      rw [List.getD_eq_getElem?_getD, List.getElem?_map, List.getElem?_eq_getElem hj, Option.map_some,
        Option.getD_some, List.getD_eq_getElem?_getD, List.getElem?_eq_getElem hj, Option.getD_some]
    rw [e _ k (by omega), e _ k (by omega), e _ k (by omega), e _ k (by omega),
      e _ (k + t) (by omega), e _ (k + t) (by omega), e _ (k + t) (by omega), e _ (k + t) (by omega)]
    unfold sqDist
    ring
  · rw [List.getElem?_eq_none (by simp; omega), List.getElem?_eq_none (by simpa using ht)]

/-- **C41**: in direct mode, entry `m` is the squared displacement from the first frame. -/
theorem C41_direct (r : List (Vec3 ℝ)) :
    directColumn r = (List.range r.length).map (directMSD r) := by
  refine List.ext_getElem? fun t => ?_
  unfold directColumn
  rcases Nat.lt_or_ge t r.length with ht | ht
  · rw [List.getElem?_map, List.getElem?_map, List.getElem?_range ht, List.getElem?_eq_getElem ht,
      Option.map_some, Option.map_some, Option.some.injEq]
    have h0 : r.headD 0 = posAt r 0 := by
      cases r with
      | nil => simp at ht
      | cons a r => rfl
    unfold directMSD sqDist
    rw [h0]
    have : posAt r t = r[t] := by
      unfold posAt
      rw [List.getD_eq_getElem?_getD, List.getElem?_eq_getElem ht, Option.getD_some]
    rw [this]
    simp [Vec3.dot]
    ring
  · rw [List.getElem?_eq_none (by simpa using ht), List.getElem?_eq_none (by simpa using ht)]

/-- **C41**: every value is at least 0, and the value for windows of length 0 is 0. -/
theorem C41_nonneg_zero (r : List (Vec3 ℝ)) :
    (∀ x ∈ windowColumn r, 0 ≤ x) ∧ ∀ x, (windowColumn r)[0]? = some x → x = 0 := by
  have hs : ∀ a b, 0 ≤ sqDist a b := by intro a b; unfold sqDist; positivity
  rw [C41_window]
  refine ⟨?_, ?_⟩
  · intro x hx
    obtain ⟨m, -, rfl⟩ := List.mem_map.mp hx
    unfold windowMSD
    refine div_nonneg (List.sum_nonneg ?_) (Nat.cast_nonneg _)
    intro y hy
    obtain ⟨k, -, rfl⟩ := List.mem_map.mp hy
    exact hs _ _
  · intro x hx
    rw [List.getElem?_map, Option.map_eq_some_iff] at hx
    obtain ⟨m, hm, rfl⟩ := hx
    have hm0 : m = 0 := by
      rcases Nat.eq_zero_or_pos r.length with h | h
      · rw [h] at hm; simp at hm
      · rw [List.getElem?_range h] at hm; simpa using hm.symm
    subst hm0
    unfold windowMSD
    simp [sqDist]

/-! ### Batches -/

/-- A history of calls to `compute`. -/
noncomputable def MSD.run (s : State) : List (Arg × Bool) → State
  | [] => s
  | c :: cs => MSD.run (compute s c.1 c.2).1 cs

/-- An argument that `compute` accepts: at least one frame, every particle has a position (and, if
images are given, an image) in every frame. -/
def Spec.GoodArg (a : Arg) : Prop :=
  1 ≤ a.nFrames ∧ (∀ r ∈ a.particles, r.length = a.nFrames) ∧
    ∀ im, a.images = some im → im.length = a.particles.length ∧ ∀ r ∈ im, r.length = a.nFrames

/-- The accepted arguments that count: those since the last call with `reset=True` (that call
included). -/
noncomputable def Spec.argsSince : List (Arg × Bool) → List Arg → List Arg
  | [], acc => acc
  | (a, reset) :: cs, acc =>
    let acc := if reset then [] else acc
    open Classical in Spec.argsSince cs (if GoodArg a then acc ++ [a] else acc)

/-- The MSD of one particle in the given mode. -/
noncomputable def Spec.particleMSD (mode : Mode) (r : List (Vec3 ℝ)) : List ℝ :=
  match mode with
  | .window => (List.range r.length).map (windowMSD r)
  | .direct => (List.range r.length).map (directMSD r)

theorem ok_iff (a : Arg) : (a.ok = true ∧ a.nFrames ≠ 0) ↔ GoodArg a := by
  unfold Arg.ok GoodArg
  cases h : a.images with
  | none => simp [Nat.one_le_iff_ne_zero]; tauto
  | some im => simp [Nat.one_le_iff_ne_zero]; tauto

theorem unwrapped_len (box : Option (Box ℝ)) (a : Arg) (h : GoodArg a) :
    (∀ r ∈ a.unwrapped box, r.length = a.nFrames) ∧ (a.unwrapped box).length = a.particles.length := by
  unfold Arg.unwrapped
  split
  · rename_i b im hi
    have h3 := h.2.2 im hi
    refine ⟨?_, by simp [h3.1]⟩
    intro r hr
    rw [List.mem_iff_getElem?] at hr
    obtain ⟨i, hi⟩ := hr
    rw [List.getElem?_zipWith] at hi
    cases h1 : a.particles[i]? with
    | none => simp [h1] at hi
    | some x =>
      cases h2 : im[i]? with
      | none => simp [h1, h2] at hi
      | some y =>
        simp only [h1, h2, Option.some.injEq] at hi
        rw [← hi, List.length_zipWith, h.2.1 x (List.mem_of_getElem? h1),
          h3.2 y (List.mem_of_getElem? h2), Nat.min_self]
  · exact ⟨h.2.1, rfl⟩

theorem column_eq (mode : Mode) : column mode = particleMSD mode := by
  funext r
  cases mode
  · exact C41_window r
  · exact C41_direct r

theorem compute_good (s : State) (a : Arg) (reset : Bool) (h : GoodArg a) :
    compute s a reset = ({ s with
      batches := (if reset then [] else s.batches) ++ [⟨a.nFrames, (a.unwrapped s.box).map (particleMSD s.mode)⟩]
      called := some true }, false) := by
  obtain ⟨h1, h2⟩ := (ok_iff a).mpr h
  unfold compute
  cases reset
  · simp only [Bool.false_eq_true, if_false]
    rw [if_neg (by rw [h1]; decide), if_neg h2, column_eq]
  · simp only [if_true]
    rw [if_neg (by rw [h1]; decide), if_neg h2, column_eq]

theorem compute_bad (s : State) (a : Arg) (reset : Bool) (h : ¬ GoodArg a) :
    compute s a reset = ({ s with
      batches := if reset then [] else s.batches
      called := some true }, true) := by
  rw [← ok_iff] at h
  unfold compute
  have : a.ok = false ∨ a.nFrames = 0 := by
    cases h1 : a.ok
    · exact Or.inl rfl
    · right; by_contra h2; exact h ⟨h1, h2⟩
  cases reset
  · simp only [Bool.false_eq_true, if_false]
    rcases this with h1 | h1
    · rw [if_pos h1]
    · split_ifs <;> rfl
  · simp only [if_true]
    rcases this with h1 | h1
    · rw [if_pos h1]
    · split_ifs <;> rfl

/-- The stored batches after any history. -/
theorem run_batches (cs : List (Arg × Bool)) : ∀ (s : State) (acc : List Arg),
    s.batches = acc.map (fun a => ⟨a.nFrames, (a.unwrapped s.box).map (particleMSD s.mode)⟩) →
    (MSD.run s cs).batches = (argsSince cs acc).map
        (fun a => ⟨a.nFrames, (a.unwrapped s.box).map (particleMSD s.mode)⟩) ∧
      (MSD.run s cs).box = s.box ∧ (MSD.run s cs).mode = s.mode ∧
      (MSD.run s cs).called = if cs = [] then s.called else some true := by
  induction cs with
  | nil => intro s acc h; exact ⟨h, rfl, rfl, rfl⟩
  | cons c cs ih =>
    intro s acc h
    obtain ⟨a, reset⟩ := c
    simp only [MSD.run, argsSince]
    by_cases hg : GoodArg a
    · rw [compute_good s a reset hg, if_pos hg]
      have := ih { s with
        batches := (if reset then [] else s.batches) ++
          [⟨a.nFrames, (a.unwrapped s.box).map (particleMSD s.mode)⟩]
        called := some true } ((if reset then [] else acc) ++ [a])
        (by cases reset <;> simp [h])
      refine ⟨this.1, this.2.1, this.2.2.1, ?_⟩
      rw [this.2.2.2]; simp
    · rw [compute_bad s a reset hg, if_neg hg]
      have := ih { s with
        batches := if reset then [] else s.batches
        called := some true } (if reset then [] else acc) (by cases reset <;> simp [h])
      refine ⟨this.1, this.2.1, this.2.2.1, ?_⟩
      rw [this.2.2.2]; simp

/-- **C42**: after any history of calls, with at least one accepted call since the last
`reset=True` and the same number `n` of frames in all of these, `particle_msd` has the MSD of every
particle of these calls, in order, and `msd` their mean. Images are used if and only if there is a
box. -/
theorem C42_after_history (box : Option (Box ℝ)) (mode : Mode) (cs : List (Arg × Bool)) (n : ℕ)
    (hne : argsSince cs [] ≠ []) (hn : ∀ a ∈ argsSince cs [], a.nFrames = n) :
    let cols := (argsSince cs []).flatMap (fun a => (a.unwrapped box).map (particleMSD mode))
    particleMsd (MSD.run (new box mode) cs) = .value cols ∧
    msd (MSD.run (new box mode) cs) = .value ((List.range n).map (fun m =>
      meanOf (cols.map (fun c => c.getD m 0)))) := by
  intro cols
  have hcs : cs ≠ [] := by rintro rfl; exact hne rfl
  obtain ⟨hb, -, -, hc⟩ := run_batches cs (new box mode) [] rfl
  simp only [new, if_neg hcs] at hb hc
  have hcat : concatenate (MSD.run (new box mode) cs).batches = some ⟨n, cols⟩ := by
    simp only [new]
    rw [hb]
    cases hA : argsSince cs [] with
    | nil => exact absurd hA hne
    | cons a as =>
      have ha : a.nFrames = n := hn a (by rw [hA]; exact List.mem_cons_self)
      simp only [List.map_cons, concatenate]
      rw [if_pos]
      · simp only [cols, hA, ha, Option.some.injEq, Batch.mk.injEq, true_and]
        rw [List.flatMap_cons, List.flatMap_cons, List.flatMap_map]
      · rw [List.all_eq_true]
        intro c hc
        obtain ⟨d, hd, rfl⟩ := List.mem_map.mp hc
        have := hn d (by rw [hA]; exact List.mem_cons_of_mem _ hd)
        simp [this, ha]
  have hc' : (MSD.run (new box mode) cs).called = some true := hc
  constructor
  · unfold particleMsd
    rw [hc']
    simp only [hcat]
  · unfold msd
    rw [hc']
    simp only [hcat, meanOf, List.length_map]

/-- **C42**: computing in batches gives the same as computing all particles at once, for every way
of splitting the particles: if one call `once` has the particles of the calls of a history (with the
same images), both results agree. -/
theorem C42_batches_equal_one_call (box : Option (Box ℝ)) (mode : Mode) (cs : List (Arg × Bool))
    (n : ℕ) (hne : argsSince cs [] ≠ []) (hn : ∀ a ∈ argsSince cs [], a.nFrames = n)
    (once : Arg) (ho : GoodArg once) (hon : once.nFrames = n)
    (hall : once.unwrapped box = (argsSince cs []).flatMap (fun a => a.unwrapped box)) :
    particleMsd (MSD.run (new box mode) cs) =
      particleMsd (MSD.run (new box mode) [(once, true)]) ∧
    msd (MSD.run (new box mode) cs) = msd (MSD.run (new box mode) [(once, true)]) := by
  have e : argsSince [(once, true)] [] = [once] := by simp [argsSince, ho]
  have h1 := C42_after_history box mode cs n hne hn
  have h2 := C42_after_history box mode [(once, true)] n (by rw [e]; simp) (by rw [e]; simp [hon])
  have h3 : (argsSince cs []).flatMap (fun a => (a.unwrapped box).map (particleMSD mode)) =
      (argsSince [(once, true)] []).flatMap (fun a => (a.unwrapped box).map (particleMSD mode)) := by
    rw [e]
    simp only [List.flatMap_cons, List.flatMap_nil, List.append_nil]
    rw [hall, List.map_flatMap]
  simp only at h1 h2
  rw [h1.1, h1.2, h2.1, h2.2, h3]
  exact ⟨rfl, rfl⟩

/-- The condition on `once` holds for the concatenated arrays, without images. -/
theorem C42_concatenated (box : Option (Box ℝ)) (as : List Arg) (n : ℕ)
    (h : ∀ a ∈ as, a.images = none) :
    (⟨n, as.flatMap (·.particles), none⟩ : Arg).unwrapped box =
      as.flatMap (fun a => a.unwrapped box) := by
  have e : ∀ a ∈ as, a.unwrapped box = a.particles := by
    intro a ha
    unfold Arg.unwrapped
    rw [h a ha]
    cases box <;> rfl
  have : as.flatMap (fun a => a.unwrapped box) = as.flatMap (·.particles) := by
    rw [List.flatMap_def, List.flatMap_def]
    exact congrArg List.flatten (List.map_congr_left e)
  rw [this]
  cases box <;> rfl

/-- The condition on `once` holds for the concatenated arrays, with images. -/
theorem C42_concatenated_images (box : Option (Box ℝ)) (as : List (Arg × List (List (Vec3 ℤ)))) (n : ℕ)
    (h : ∀ a ∈ as, a.1.images = some a.2 ∧ a.2.length = a.1.particles.length) :
    (⟨n, as.flatMap (·.1.particles), some (as.flatMap (·.2))⟩ : Arg).unwrapped box =
      as.flatMap (fun a => a.1.unwrapped box) := by
  cases box with
  | none => simp [Arg.unwrapped]
  | some b =>
    induction as with
    | nil => rfl
    | cons a as ih =>
      have ha := h a List.mem_cons_self
      have := ih (fun a h' => h a (List.mem_cons_of_mem _ h'))
      simp only [List.flatMap_cons]
      rw [← this]
      unfold Arg.unwrapped
      simp only [ha.1]
      rw [List.zipWith_append ha.2.symm]

/-- **C42**: what was computed before a call with `reset=True` does not matter. -/
theorem C42_reset_forgets (box : Option (Box ℝ)) (mode : Mode) (before after : List (Arg × Bool))
    (a : Arg) :
    particleMsd (MSD.run (new box mode) (before ++ (a, true) :: after)) =
      particleMsd (MSD.run (new box mode) ((a, true) :: after)) ∧
    msd (MSD.run (new box mode) (before ++ (a, true) :: after)) =
      msd (MSD.run (new box mode) ((a, true) :: after)) := by
  have e : ∀ (before : List (Arg × Bool)) acc, argsSince (before ++ (a, true) :: after) acc =
      argsSince ((a, true) :: after) [] := by
    intro before
    induction before with
    | nil => intro acc; simp [argsSince]
    | cons c cs ih => intro acc; obtain ⟨x, r⟩ := c; exact ih _
  obtain ⟨h1, -, -, h2⟩ := run_batches (before ++ (a, true) :: after) (new box mode) [] rfl
  obtain ⟨h3, -, -, h4⟩ := run_batches ((a, true) :: after) (new box mode) [] rfl
  rw [e] at h1
  rw [if_neg (by simp)] at h2 h4
  unfold particleMsd msd
  rw [h1, h2, h3, h4]
  exact ⟨rfl, rfl⟩

/-- Two batches of one particle each, over three frames. -/
def msdArg (v : ℝ) : Arg := ⟨3, [[⟨0, 0, 0⟩, ⟨v, 0, 0⟩, ⟨v, 1, 0⟩]], none⟩

theorem msdArg_good (v : ℝ) : GoodArg (msdArg v) := by
  refine ⟨by simp [msdArg], ?_, by simp [msdArg]⟩
  simp [msdArg]

/-- The hypotheses of `C42_after_history` and `C42_batches_equal_one_call` hold for two batches. -/
example : ∃ cs, argsSince cs [] ≠ [] ∧ (∀ a ∈ argsSince cs [], a.nFrames = 3) ∧
    ∃ once, GoodArg once ∧ once.nFrames = 3 ∧
      once.unwrapped none = (argsSince cs []).flatMap (fun a => a.unwrapped none) := by
  have e : argsSince [(msdArg 1, true), (msdArg 2, false)] [] = [msdArg 1, msdArg 2] := by
    simp [argsSince, msdArg_good]
  refine ⟨[(msdArg 1, true), (msdArg 2, false)], by rw [e]; simp, by rw [e]; simp [msdArg],
    ⟨3, (msdArg 1).particles ++ (msdArg 2).particles, none⟩, ⟨(by decide : 1 ≤ 3), ?_, by simp⟩, rfl, ?_⟩
  · simp [msdArg]
  · rw [e]; rfl

/-- **C42** (exception): batches with different numbers of frames are accepted by `compute`; only
reading the results raises, and it raises ever after until the next `reset=True`. -/
theorem C42_different_frames_counterexample :
    ∃ a b : Arg, GoodArg a ∧ GoodArg b ∧
      let s1 := (compute (new none .window) a true).1
      let r := compute s1 b false
      r.2 = false ∧ particleMsd r.1 = .valueError ∧ msd r.1 = .valueError := by
  refine ⟨⟨1, [[⟨0, 0, 0⟩]], none⟩, ⟨2, [[⟨0, 0, 0⟩, ⟨1, 0, 0⟩]], none⟩, ?_, ?_, ?_⟩
  · exact ⟨by decide, by simp, by simp⟩
  · exact ⟨by decide, by simp, by simp⟩
  · have g1 : GoodArg ⟨1, [[⟨0, 0, 0⟩]], none⟩ := ⟨by decide, by simp, by simp⟩
    have g2 : GoodArg ⟨2, [[⟨0, 0, 0⟩, ⟨1, 0, 0⟩]], none⟩ := ⟨by decide, by simp, by simp⟩
    intro s1 r
    have hs1 : s1 = _ := congrArg Prod.fst (compute_good (new none .window) _ true g1)
    have hr : r = _ := compute_good s1 _ false g2
    rw [hs1] at hr
    rw [hr]
    refine ⟨rfl, ?_, ?_⟩
    · simp [particleMsd, concatenate, new]
    · simp [msd, concatenate, new]

/-- **C42**: positions with images are read as positions plus that many lattice vectors: in an object
with a box, a call with wrapped positions and their images is the same as a call with the unwrapped
trajectories and no images. (In two dimensions the third image is 0.) -/
theorem C42_images (b : Box ℝ) (hb : Valid b) (s : State) (hs : s.box = some b) (n : ℕ)
    (pairs : List (List (Vec3 ℝ × Vec3 ℤ))) (h2 : b.is2D = true → ∀ r ∈ pairs, ∀ p ∈ r, p.2.z = 0)
    (reset : Bool) :
    compute s ⟨n, pairs.map (List.map (·.1)), some (pairs.map (List.map (·.2)))⟩ reset =
      compute s ⟨n, pairs.map (List.map fun p => p.1 + lattice b p.2), none⟩ reset := by
  have hu : (⟨n, pairs.map (List.map (·.1)), some (pairs.map (List.map (·.2)))⟩ : Arg).unwrapped (some b) =
      (⟨n, pairs.map (List.map fun p => p.1 + lattice b p.2), none⟩ : Arg).unwrapped (some b) := by
    simp only [Arg.unwrapped]
    rw [List.zipWith_map, List.zipWith_self]
    refine List.map_congr_left fun r hr => ?_
    rw [List.zipWith_map, List.zipWith_self]
    refine List.map_congr_left fun p hp => ?_
    rw [unwrap_eq hb]
    cases h : b.is2D with
    | false => rfl
    | true => simp [lattice, h2 h r hr p hp]
  have hok : (⟨n, pairs.map (List.map (·.1)), some (pairs.map (List.map (·.2)))⟩ : Arg).ok =
      (⟨n, pairs.map (List.map fun p => p.1 + lattice b p.2), none⟩ : Arg).ok := by
    simp [Arg.ok, List.all_map, Function.comp_def]
  unfold compute
  cases reset
  · simp only [Bool.false_eq_true, if_false]
    rw [hok, hs, hu]
  · simp only [if_true]
    rw [hok, hs, hu]

/-- The hypotheses of `C42_images` hold for a particle that crosses the boundary of a box; its MSD is
that of the unwrapped path and not 0. -/
example : ∃ (b : Box ℝ) (s : State) (pairs : List (List (Vec3 ℝ × Vec3 ℤ))), Valid b ∧ s.box = some b ∧
    (b.is2D = true → ∀ r ∈ pairs, ∀ p ∈ r, p.2.z = 0) ∧
    pairs.map (List.map fun p => p.1 + lattice b p.2) = [[⟨0, 0, 0⟩, ⟨2, 0, 0⟩]] ∧
    pairs.map (List.map (·.1)) = [[⟨0, 0, 0⟩, ⟨0, 0, 0⟩]] := by
  refine ⟨Box.mk' 2 2 2 0 0 0 false, new (some (Box.mk' 2 2 2 0 0 0 false)) .direct,
    [[(⟨0, 0, 0⟩, ⟨0, 0, 0⟩), (⟨0, 0, 0⟩, ⟨1, 0, 0⟩)]], ?_, rfl, ?_, ?_, rfl⟩
  · constructor <;> simp [Box.mk', Box.setL]
  · intro h; simp [Box.mk', Box.setL] at h
  · simp [lattice, comb, a1, a2, a3, Box.mk', Box.setL, Vec3.ext_iff]

/-- **C42** (exception): images given to an object without a box are ignored without notice: the
call does the same as without images. -/
theorem C42_images_without_box_counterexample (mode : Mode) (a : Arg) (ha : GoodArg a)
    (reset : Bool) :
    compute (new none mode) a reset = compute (new none mode) { a with images := none } reset := by
  have h2 : GoodArg { a with images := none } := ⟨ha.1, ha.2.1, by simp⟩
  rw [compute_good _ _ _ ha, compute_good _ _ _ h2]
  simp [Arg.unwrapped, new]

end Freud
