import Verif.Props.MSD

/-!
# Property C120: how the mean squared displacement depends on the trajectories
-/

namespace Freud
open Spec MSD

/-! ### Specification -/

/-- The trajectories that count in a history of calls: those of all particles in the accepted calls
since the last `reset=True`, unwrapped if there are a box and images. -/
noncomputable def Spec.trajectories (box : Option (Box ℝ)) (cs : List (Arg × Bool)) :
    List (List (Vec3 ℝ)) :=
  (argsSince cs []).flatMap (fun a => a.unwrapped box)

/-- A history whose results can be read: at least one accepted call since the last `reset=True`, and
`n` frames in all of these. -/
def Spec.Readable (n : ℕ) (cs : List (Arg × Bool)) : Prop :=
  argsSince cs [] ≠ [] ∧ ∀ a ∈ argsSince cs [], a.nFrames = n

/-- A map of space that keeps all distances: a translation, rotation, reflection or a product of
these. -/
def Spec.KeepsDistances (Q : Vec3 ℝ → Vec3 ℝ) : Prop := ∀ u v, sqDist (Q u) (Q v) = sqDist u v

/-- The trajectory of a particle that starts at `a` and moves by `v` between frames, `n` frames. -/
def Spec.ballistic (a v : Vec3 ℝ) (n : ℕ) : List (Vec3 ℝ) :=
  (List.range n).map (fun k : ℕ => ⟨a.x + k * v.x, a.y + k * v.y, a.z + k * v.z⟩)

/-! ### Helper lemmas -/

namespace MSDSym

theorem good_of_mem (cs : List (Arg × Bool)) : ∀ acc : List Arg, (∀ a ∈ acc, GoodArg a) →
    ∀ a ∈ argsSince cs acc, GoodArg a := by
  induction cs with
  | nil => intro acc h; exact h
  | cons c cs ih =>
    intro acc h
    obtain ⟨b, reset⟩ := c
    simp only [argsSince]
    refine ih _ ?_
    intro a ha
    split_ifs at ha with h1 h2 h2
    · simp at ha; exact ha ▸ h1
    · rcases List.mem_append.mp ha with ha | ha
      · exact h a ha
      · simp at ha; exact ha ▸ h1
    · simp at ha
    · exact h a ha

theorem traj_length {box : Option (Box ℝ)} {cs : List (Arg × Bool)} {n : ℕ} (h : Readable n cs) :
    ∀ r ∈ trajectories box cs, r.length = n := by
  intro r hr
  obtain ⟨a, ha, hra⟩ := List.mem_flatMap.mp hr
  rw [(unwrapped_len box a (good_of_mem cs [] (by simp) a ha)).1 r hra, h.2 a ha]

theorem results (box : Option (Box ℝ)) (mode : Mode) {cs : List (Arg × Bool)} {n : ℕ}
    (h : Readable n cs) :
    particleMsd (MSD.run (new box mode) cs) = .value ((trajectories box cs).map (particleMSD mode)) ∧
    msd (MSD.run (new box mode) cs) = .value ((List.range n).map (fun m =>
      meanOf (((trajectories box cs).map (particleMSD mode)).map (fun c => c.getD m 0)))) := by
  have := C42_after_history box mode cs n h.1 h.2
  have e : (argsSince cs []).flatMap (fun a => (a.unwrapped box).map (particleMSD mode)) =
      (trajectories box cs).map (particleMSD mode) := by
    unfold trajectories; rw [List.map_flatMap]
  simp only [e] at this
  exact this

theorem posAt_map (Q : Vec3 ℝ → Vec3 ℝ) (r : List (Vec3 ℝ)) {k : ℕ} (h : k < r.length) :
    posAt (r.map Q) k = Q (posAt r k) := by
  unfold posAt
  rw [List.getD_eq_getElem?_getD, List.getElem?_map, List.getElem?_eq_getElem h, Option.map_some,
    Option.getD_some, List.getD_eq_getElem?_getD, List.getElem?_eq_getElem h, Option.getD_some]

theorem posAt_reverse (r : List (Vec3 ℝ)) {k : ℕ} (h : k < r.length) :
    posAt r.reverse k = posAt r (r.length - 1 - k) := by
  unfold posAt
  rw [List.getD_eq_getElem?_getD, List.getElem?_reverse h, List.getD_eq_getElem?_getD]

theorem sqDist_comm (a b : Vec3 ℝ) : sqDist a b = sqDist b a := by unfold sqDist; ring

theorem particle_moved (mode : Mode) (Q : Vec3 ℝ → Vec3 ℝ) (hQ : KeepsDistances Q)
    (r : List (Vec3 ℝ)) : particleMSD mode (r.map Q) = particleMSD mode r := by
  cases mode
  · simp only [particleMSD, List.length_map]
    refine List.map_congr_left fun m hm => ?_
    have hm := List.mem_range.mp hm
    unfold windowMSD
    simp only [List.length_map]
    congr 2
    refine List.map_congr_left fun k hk => ?_
    have hk := List.mem_range.mp hk
    rw [posAt_map Q r (by omega), posAt_map Q r (by omega), hQ]
  · simp only [particleMSD, List.length_map]
    refine List.map_congr_left fun m hm => ?_
    have hm := List.mem_range.mp hm
    unfold directMSD
    rw [posAt_map Q r hm, posAt_map Q r (by omega), hQ]

theorem windowMSD_reverse (r : List (Vec3 ℝ)) (m : ℕ) (hm : m < r.length) :
    windowMSD r.reverse m = windowMSD r m := by
  unfold windowMSD
  simp only [List.length_reverse]
  congr 1
  rw [list_range_sum, list_range_sum, ← Finset.sum_range_reflect]
  refine Finset.sum_congr rfl fun k hk => ?_
  have hk := Finset.mem_range.mp hk
  rw [posAt_reverse r (by omega), posAt_reverse r (by omega), sqDist_comm]
  congr 2 <;> omega

theorem particle_reversed (r : List (Vec3 ℝ)) :
    particleMSD .window r.reverse = particleMSD .window r := by
  simp only [particleMSD, List.length_reverse]
  exact List.map_congr_left fun m hm => windowMSD_reverse r m (List.mem_range.mp hm)

theorem forall₂_map {α β : Type*} {R : α → α → Prop} {f : α → β} (hf : ∀ a b, R a b → f b = f a)
    {l l' : List α} (h : List.Forall₂ R l l') : l'.map f = l.map f := by
  induction h with
  | nil => rfl
  | cons h _ ih => simp [hf _ _ h, ih]

theorem posAt_ballistic (a v : Vec3 ℝ) (n k : ℕ) (h : k < n) :
    posAt (ballistic a v n) k = ⟨a.x + k * v.x, a.y + k * v.y, a.z + k * v.z⟩ := by
  unfold posAt ballistic
  rw [List.getD_eq_getElem?_getD, List.getElem?_map, List.getElem?_range h]
  rfl

/-- Steps of bounded length add up. -/
theorem sqDist_triangle {a b c : Vec3 ℝ} {p q : ℝ} (hp : 0 ≤ p) (hq : 0 ≤ q) (h1 : sqDist a b ≤ p ^ 2)
    (h2 : sqDist b c ≤ q ^ 2) : sqDist a c ≤ (p + q) ^ 2 := by
  obtain ⟨a1, a2, a3⟩ := a
  obtain ⟨b1, b2, b3⟩ := b
  obtain ⟨c1, c2, c3⟩ := c
  simp only [sqDist] at *
  obtain ⟨u1, hu1⟩ : ∃ u, u = a1 - b1 := ⟨_, rfl⟩
  obtain ⟨u2, hu2⟩ : ∃ u, u = a2 - b2 := ⟨_, rfl⟩
  obtain ⟨u3, hu3⟩ : ∃ u, u = a3 - b3 := ⟨_, rfl⟩
  obtain ⟨v1, hv1⟩ : ∃ u, u = b1 - c1 := ⟨_, rfl⟩
  obtain ⟨v2, hv2⟩ : ∃ u, u = b2 - c2 := ⟨_, rfl⟩
  obtain ⟨v3, hv3⟩ : ∃ u, u = b3 - c3 := ⟨_, rfl⟩
  rw [← hu1, ← hu2, ← hu3] at h1
  rw [← hv1, ← hv2, ← hv3] at h2
  have e1 : a1 - c1 = u1 + v1 := by rw [hu1, hv1]; ring
  have e2 : a2 - c2 = u2 + v2 := by rw [hu2, hv2]; ring
  have e3 : a3 - c3 = u3 + v3 := by rw [hu3, hv3]; ring
  rw [e1, e2, e3]
  have cs : (u1 * v1 + u2 * v2 + u3 * v3) ^ 2 ≤
      (u1 ^ 2 + u2 ^ 2 + u3 ^ 2) * (v1 ^ 2 + v2 ^ 2 + v3 ^ 2) := by
    have i1 := sq_nonneg (u1 * v2 - u2 * v1)
    have i2 := sq_nonneg (u1 * v3 - u3 * v1)
    have i3 := sq_nonneg (u2 * v3 - u3 * v2)
    linarith
  have hb : (u1 ^ 2 + u2 ^ 2 + u3 ^ 2) * (v1 ^ 2 + v2 ^ 2 + v3 ^ 2) ≤ p ^ 2 * q ^ 2 :=
    mul_le_mul h1 h2 (by positivity) (by positivity)
  have hd : u1 * v1 + u2 * v2 + u3 * v3 ≤ p * q := by
    refine le_of_sq_le_sq ?_ (mul_nonneg hp hq)
    rw [mul_pow]; exact cs.trans hb
  linarith

theorem steps {r : List (Vec3 ℝ)} {d : ℝ} (hd : 0 ≤ d)
    (h : ∀ k, k + 1 < r.length → sqDist (posAt r (k + 1)) (posAt r k) ≤ d ^ 2) (k : ℕ) :
    ∀ m, k + m < r.length → sqDist (posAt r (k + m)) (posAt r k) ≤ (m * d) ^ 2 := by
  intro m
  induction m with
  | zero => intro _; simp [sqDist]
  | succ m ih =>
    intro hk
    have h1 := ih (by omega)
    have h2 := h (k + m) (by omega)
    have := sqDist_triangle hd (mul_nonneg (Nat.cast_nonneg m) hd) h2 h1
    have e : d + m * d = ((m + 1 : ℕ) : ℝ) * d := by push_cast; ring
    rw [e] at this
    exact this

end MSDSym

open MSDSym

/-! ### Theorems -/

/-- **C120**: the MSD sees only how each particle moves relative to itself. If the trajectories of
two histories (of objects with any boxes, called in any batches) differ by a translation, rotation or
reflection, which may be another one for each particle, then both `particle_msd` and `msd` are the
same, in both modes. -/
theorem C120_moved (box box' : Option (Box ℝ)) (mode : Mode) (cs cs' : List (Arg × Bool)) (n : ℕ)
    (h : Readable n cs) (h' : Readable n cs')
    (hm : List.Forall₂ (fun r r' => ∃ Q, KeepsDistances Q ∧ r' = r.map Q) (trajectories box cs)
      (trajectories box' cs')) :
    particleMsd (MSD.run (new box' mode) cs') = particleMsd (MSD.run (new box mode) cs) ∧
    msd (MSD.run (new box' mode) cs') = msd (MSD.run (new box mode) cs) := by
  have e := forall₂_map (f := particleMSD mode)
    (by rintro a b ⟨Q, hQ, rfl⟩; exact particle_moved mode Q hQ a) hm
  obtain ⟨a1, a2⟩ := results box mode h
  obtain ⟨b1, b2⟩ := results box' mode h'
  rw [a1, a2, b1, b2, e]
  exact ⟨rfl, rfl⟩

/-- **C120**: in window mode, playing the trajectories of any of the particles backwards changes
nothing. -/
theorem C120_reversed (box box' : Option (Box ℝ)) (cs cs' : List (Arg × Bool)) (n : ℕ)
    (h : Readable n cs) (h' : Readable n cs')
    (hm : List.Forall₂ (fun r r' => r' = r ∨ r' = r.reverse) (trajectories box cs)
      (trajectories box' cs')) :
    particleMsd (MSD.run (new box' .window) cs') = particleMsd (MSD.run (new box .window) cs) ∧
    msd (MSD.run (new box' .window) cs') = msd (MSD.run (new box .window) cs) := by
  have e := forall₂_map (f := particleMSD .window)
    (by rintro a b (rfl | rfl); exacts [rfl, particle_reversed a]) hm
  obtain ⟨a1, a2⟩ := results box .window h
  obtain ⟨b1, b2⟩ := results box' .window h'
  rw [a1, a2, b1, b2, e]
  exact ⟨rfl, rfl⟩

/-- **C120** (exception): not so in direct mode, where the first frame is the reference. -/
theorem C120_reversed_direct_counterexample :
    ∃ r : List (Vec3 ℝ), r.length = 3 ∧
      column .direct r.reverse ≠ column .direct r := by
  refine ⟨[⟨0, 0, 0⟩, ⟨1, 0, 0⟩, ⟨3, 0, 0⟩], rfl, ?_⟩
  simp only [column, directColumn, List.reverse_cons, List.reverse_nil, List.nil_append, List.cons_append,
    List.map_cons, List.map_nil, List.headD_cons, Vec3.dot, Vec3.sub_x, Vec3.sub_y, Vec3.sub_z]
  intro h
  simp only [List.cons.injEq] at h
  have := h.2.1
  norm_num at this

/-- **C120**: the order of the particles (and how they are split into calls) permutes the columns of
`particle_msd` in the same way and does not change `msd`. -/
theorem C120_permuted (box box' : Option (Box ℝ)) (mode : Mode) (cs cs' : List (Arg × Bool)) (n : ℕ)
    (h : Readable n cs) (h' : Readable n cs')
    (hp : (trajectories box cs).Perm (trajectories box' cs')) :
    (∃ cols cols', particleMsd (MSD.run (new box mode) cs) = .value cols ∧
      particleMsd (MSD.run (new box' mode) cs') = .value cols' ∧
      cols.length = (trajectories box cs).length ∧
      ((trajectories box cs).zip cols).Perm ((trajectories box' cs').zip cols')) ∧
    msd (MSD.run (new box' mode) cs') = msd (MSD.run (new box mode) cs) := by
  obtain ⟨a1, a2⟩ := results box mode h
  obtain ⟨b1, b2⟩ := results box' mode h'
  refine ⟨⟨_, _, a1, b1, by simp, ?_⟩, ?_⟩
  · have e : ∀ l : List (List (Vec3 ℝ)), l.zip (l.map (particleMSD mode)) =
        l.map (fun r => (r, particleMSD mode r)) := by
      intro l
      induction l with
      | nil => rfl
      | cons a l ih => simp [ih]
    rw [e, e]
    exact hp.map _
  · rw [a2, b2]
    congr 1
    refine List.map_congr_left fun m _ => ?_
    unfold meanOf
    have := (hp.map (particleMSD mode)).map (fun c => c.getD m 0)
    rw [this.sum_eq, this.length_eq]

/-- **C120**: particles that move with constant velocity. If particle `i` starts at `as i` and moves
by `vs i` in every step, the entry of `particle_msd` for `m` frames is `m² |vs i|²`, in both modes. -/
theorem C120_constant_velocity (box : Option (Box ℝ)) (mode : Mode) (cs : List (Arg × Bool)) (n : ℕ)
    (h : Readable n cs) (av : List (Vec3 ℝ × Vec3 ℝ))
    (ht : trajectories box cs = av.map (fun x => ballistic x.1 x.2 n)) :
    particleMsd (MSD.run (new box mode) cs) = .value (av.map (fun x =>
      (List.range n).map (fun m : ℕ => (m : ℝ) ^ 2 * Vec3.dot x.2 x.2))) := by
  rw [(results box mode h).1, ht, List.map_map]
  congr 1
  refine List.map_congr_left fun x _ => ?_
  have hl : (ballistic x.1 x.2 n).length = n := by simp [ballistic]
  cases mode
  · simp only [Function.comp_apply, particleMSD, hl]
    refine List.map_congr_left fun m hm => ?_
    have hm := List.mem_range.mp hm
    unfold windowMSD
    rw [hl, list_range_sum]
    have e : ∀ k ∈ Finset.range (n - m), sqDist (posAt (ballistic x.1 x.2 n) (k + m))
        (posAt (ballistic x.1 x.2 n) k) = (m : ℝ) ^ 2 * Vec3.dot x.2 x.2 := by
      intro k hk
      have hk := Finset.mem_range.mp hk
      rw [posAt_ballistic _ _ _ _ (by omega), posAt_ballistic _ _ _ _ (by omega)]
      simp only [sqDist, Vec3.dot]
      push_cast; ring
    rw [Finset.sum_congr rfl e, Finset.sum_const, Finset.card_range, nsmul_eq_mul]
    have : ((n - m : ℕ) : ℝ) ≠ 0 := by
      have : n - m ≠ 0 := by omega
      exact_mod_cast this
    field_simp
  · simp only [Function.comp_apply, particleMSD, hl]
    refine List.map_congr_left fun m hm => ?_
    have hm := List.mem_range.mp hm
    unfold directMSD
    rw [posAt_ballistic _ _ _ _ hm, posAt_ballistic _ _ _ _ (by omega)]
    simp only [sqDist, Vec3.dot]
    push_cast; ring

/-- **C120**: the entry for the longest window is the squared displacement between the first and the
last frame, in both modes. -/
theorem C120_last (box : Option (Box ℝ)) (mode : Mode) (cs : List (Arg × Bool)) (n : ℕ)
    (h : Readable (n + 1) cs) :
    ∃ cols, particleMsd (MSD.run (new box mode) cs) = .value cols ∧
      cols.map (fun c => c[n]?) =
        (trajectories box cs).map (fun r => some (sqDist (posAt r n) (posAt r 0))) := by
  refine ⟨_, (results box mode h).1, ?_⟩
  rw [List.map_map]
  refine List.map_congr_left fun r hr => ?_
  have hl := traj_length h r hr
  cases mode
  · simp only [Function.comp_apply, particleMSD, hl]
    rw [List.getElem?_map, List.getElem?_range (by omega)]
    simp [windowMSD, hl]
  · simp only [Function.comp_apply, particleMSD, hl]
    rw [List.getElem?_map, List.getElem?_range (by omega)]
    simp [directMSD]

/-- **C120**: a particle that moves at most `d` between any two frames has an MSD of at most `(m d)²`
over `m` frames, and a particle that does not move has an MSD of 0. -/
theorem C120_bounded (box : Option (Box ℝ)) (mode : Mode) (cs : List (Arg × Bool)) (n : ℕ)
    (h : Readable n cs) (d : ℝ) (hd : 0 ≤ d)
    (hs : ∀ r ∈ trajectories box cs, ∀ k, k + 1 < n → sqDist (posAt r (k + 1)) (posAt r k) ≤ d ^ 2) :
    ∃ cols, particleMsd (MSD.run (new box mode) cs) = .value cols ∧
      ∀ c ∈ cols, ∀ (m : ℕ) (x : ℝ), c[m]? = some x → 0 ≤ x ∧ x ≤ (m * d) ^ 2 := by
  refine ⟨_, (results box mode h).1, ?_⟩
  intro c hc m x hx
  obtain ⟨r, hr, rfl⟩ := List.mem_map.mp hc
  have hl := traj_length h r hr
  have hst := fun k => steps hd (r := r) (by rw [hl]; exact hs r hr) k
  have h0 : ∀ a b, 0 ≤ sqDist a b := by intro a b; unfold sqDist; positivity
  cases mode
  · simp only [particleMSD, List.getElem?_map, Option.map_eq_some_iff] at hx
    obtain ⟨m', hm', rfl⟩ := hx
    have hlt : m < r.length := by
      by_contra hc
      rw [List.getElem?_eq_none (by simpa using hc)] at hm'; exact absurd hm' (by simp)
    rw [List.getElem?_range hlt, Option.some.injEq] at hm'
    subst hm'
    unfold windowMSD
    rw [list_range_sum]
    have hpos : (0 : ℝ) < ((r.length - m : ℕ) : ℝ) := by
      have : 0 < r.length - m := by omega
      exact_mod_cast this
    refine ⟨div_nonneg (Finset.sum_nonneg fun k _ => h0 _ _) hpos.le, ?_⟩
    rw [div_le_iff₀ hpos]
    have := Finset.sum_le_card_nsmul (Finset.range (r.length - m))
      (fun k => sqDist (posAt r (k + m)) (posAt r k)) ((m * d) ^ 2)
      (fun k hk => hst k m (by have := Finset.mem_range.mp hk; omega))
    rw [Finset.card_range, nsmul_eq_mul] at this
    linarith
  · simp only [particleMSD, List.getElem?_map, Option.map_eq_some_iff] at hx
    obtain ⟨m', hm', rfl⟩ := hx
    have hlt : m < r.length := by
      by_contra hc
      rw [List.getElem?_eq_none (by simpa using hc)] at hm'; exact absurd hm' (by simp)
    rw [List.getElem?_range hlt, Option.some.injEq] at hm'
    subst hm'
    refine ⟨h0 _ _, ?_⟩
    have := hst 0 m (by omega)
    rw [Nat.zero_add] at this
    exact this

/-- The hypotheses hold: a history with two batches, its particles shifted in one call, played
backwards, and exchanged. -/
example : ∃ cs cs' : List (Arg × Bool), Readable 3 cs ∧ Readable 3 cs' ∧
    (trajectories none cs).length = 2 ∧
    List.Forall₂ (fun r r' => ∃ Q, KeepsDistances Q ∧ r' = r.map Q) (trajectories none cs)
      (trajectories none cs') := by
  have e : argsSince [(msdArg 1, true), (msdArg 2, false)] [] = [msdArg 1, msdArg 2] := by
    simp [argsSince, msdArg_good]
  let Q : Vec3 ℝ → Vec3 ℝ := fun v => ⟨-v.y + 5, v.x, v.z - 1⟩
  have g : GoodArg ⟨3, (msdArg 1).particles.map (List.map Q) ++ (msdArg 2).particles, none⟩ := by
    refine ⟨(by decide : 1 ≤ 3), ?_, by simp⟩
    simp [msdArg]
  have e' : argsSince [(⟨3, (msdArg 1).particles.map (List.map Q) ++ (msdArg 2).particles, none⟩, true)] [] =
      [⟨3, (msdArg 1).particles.map (List.map Q) ++ (msdArg 2).particles, none⟩] := by
    simp only [argsSince, if_pos g]; rfl
  refine ⟨_, _, ⟨by rw [e]; simp, by rw [e]; simp [msdArg]⟩, ⟨by rw [e']; simp, by rw [e']; simp⟩, ?_, ?_⟩
  · unfold trajectories; rw [e]; rfl
  · unfold trajectories
    rw [e, e']
    refine List.Forall₂.cons ⟨Q, ?_, rfl⟩ (List.Forall₂.cons ⟨id, fun _ _ => rfl, by simp⟩ List.Forall₂.nil)
    intro u v
    simp only [sqDist, Q]; ring

end Freud
