import Verif.Props.NamedCells

/-!
# Chains of nearest neighbors in a crystal
-/

namespace Freud
open Spec InUnits

namespace Chains

/-- The site `y` in integer coordinates. -/
def isSite (Lat : Vec3 ℤ → Bool) (F : List (Vec3 ℤ)) (y : Vec3 ℤ) : Bool := F.any fun C => Lat (y - C)

/-- Two different sites nearer than the cutoff. -/
def adj (Lat : Vec3 ℤ → Bool) (F : List (Vec3 ℤ)) (q : Vec3 ℤ) (M : ℤ) (y y' : Vec3 ℤ) : Bool :=
  isSite Lat F y && isSite Lat F y' && decide (y ≠ y') && decide (quad q (y' - y) < M)

/-- The steps lead from neighbor to neighbor to the target. -/
def walk (Lat : Vec3 ℤ → Bool) (F : List (Vec3 ℤ)) (q : Vec3 ℤ) (M : ℤ) (T : Vec3 ℤ) : Vec3 ℤ → List (Vec3 ℤ) → Bool
  | y, [] => decide (y = T)
  | y, x :: xs => adj Lat F q M y (y + x) && walk Lat F q M T (y + x) xs

/-- What has to be computed: from every site of the basis there are chains to all others and to its translates. -/
structure Connected (Lat : Vec3 ℤ → Bool) (F : List (Vec3 ℤ)) (q : Vec3 ℤ) (M : ℤ) (g₁ g₂ g₃ : Vec3 ℤ)
    (cands : List (List (Vec3 ℤ))) : Prop where
  add : ∀ g ∈ [g₁, g₂, g₃], ∀ w, Lat (w + g) = Lat w
  gen : ∀ w, Lat w = true → ∃ a b c : ℤ, w = ⟨a * g₁.x + b * g₂.x + c * g₃.x, a * g₁.y + b * g₂.y + c * g₃.y,
    a * g₁.z + b * g₂.z + c * g₃.z⟩
  basis : ∀ A ∈ F, ∀ C ∈ F, ∃ xs ∈ cands, walk Lat F q M C A xs = true
  step : ∀ A ∈ F, ∀ g ∈ [g₁, g₂, g₃], ∃ xs ∈ cands, walk Lat F q M (A + g) A xs = true

variable {Lat : Vec3 ℤ → Bool} {F : List (Vec3 ℤ)} {q : Vec3 ℤ} {M : ℤ}

theorem vadd (a b c : Vec3 ℤ) : a + b + c = a + c + b := by ext <;> simp <;> ring

theorem adj_comm {y y' : Vec3 ℤ} (h : adj Lat F q M y y' = true) : adj Lat F q M y' y = true := by
  simp only [adj, Bool.and_eq_true, decide_eq_true_eq] at h ⊢
  obtain ⟨⟨⟨h1, h2⟩, h3⟩, h4⟩ := h
  refine ⟨⟨⟨h2, h1⟩, h3.symm⟩, ?_⟩
  have e : quad q (y - y') = quad q (y' - y) := by
    simp [quad]; ring
  rw [e]; exact h4

theorem walk_chain {T y : Vec3 ℤ} {xs : List (Vec3 ℤ)} (h : walk Lat F q M T y xs = true) :
    Relation.ReflTransGen (fun y y' => adj Lat F q M y y' = true) y T := by
  induction xs generalizing y with
  | nil => rw [of_decide_eq_true h]
  | cons x xs ih =>
    rw [walk, Bool.and_eq_true] at h
    exact .head h.1 (ih h.2)

theorem chain_symm {y y' : Vec3 ℤ} (h : Relation.ReflTransGen (fun y y' => adj Lat F q M y y' = true) y y') :
    Relation.ReflTransGen (fun y y' => adj Lat F q M y y' = true) y' y := by
  induction h with
  | refl => exact .refl
  | tail _ h ih => exact .head (adj_comm h) ih

theorem chain_move {w : Vec3 ℤ} (hw : ∀ v, Lat (v + w) = Lat v) {y y' : Vec3 ℤ}
    (h : Relation.ReflTransGen (fun y y' => adj Lat F q M y y' = true) y y') :
    Relation.ReflTransGen (fun y y' => adj Lat F q M y y' = true) (y + w) (y' + w) := by
  have hs : ∀ v, isSite Lat F (v + w) = isSite Lat F v := by
    intro v
    unfold isSite
    congr 1
    funext C
    rw [← hw (v - C)]
    congr 1
    ext <;> simp <;> ring
  induction h with
  | refl => exact .refl
  | @tail b c _ h ih =>
    refine .tail ih ?_
    simp only [adj, Bool.and_eq_true, decide_eq_true_eq, hs] at h ⊢
    refine ⟨⟨h.1.1, fun e => h.1.2 ?_⟩, ?_⟩
    · have e1 := congrArg Vec3.x e
      have e2 := congrArg Vec3.y e
      have e3 := congrArg Vec3.z e
      simp at e1 e2 e3
      ext <;> assumption
    · rw [show c + w - (b + w) = c - b by ext <;> simp]; exact h.2

/-- Integer multiples of a vector. -/
def times (a : ℤ) (g : Vec3 ℤ) : Vec3 ℤ := ⟨a * g.x, a * g.y, a * g.z⟩

theorem lat_times {g : Vec3 ℤ} (hg : ∀ w, Lat (w + g) = Lat w) (a : ℤ) : ∀ w, Lat (w + times a g) = Lat w := by
  induction a with
  | zero => intro w; congr 1; ext <;> simp [times]
  | succ n ih =>
    intro w
    rw [← ih w, ← hg (w + times n g)]
    congr 1
    ext <;> simp [times] <;> ring
  | pred n ih =>
    intro w
    rw [← ih w, ← hg]
    congr 1
    ext <;> simp [times] <;> ring

theorem chain_times {g : Vec3 ℤ} (hg : ∀ w, Lat (w + g) = Lat w) {y : Vec3 ℤ}
    (h : Relation.ReflTransGen (fun y y' => adj Lat F q M y y' = true) y (y + g)) (a : ℤ) :
    Relation.ReflTransGen (fun y y' => adj Lat F q M y y' = true) y (y + times a g) := by
  induction a with
  | zero =>
    rw [show y + times 0 g = y by ext <;> simp [times]]
  | succ n ih =>
    refine ih.trans ?_
    have := chain_move (lat_times hg n) h
    rwa [show y + g + times n g = y + times (n + 1) g by ext <;> simp [times] <;> ring] at this
  | pred n ih =>
    refine ih.trans (chain_symm ?_)
    have := chain_move (lat_times hg (-n - 1)) h
    rwa [show y + g + times (-n - 1) g = y + times (-n) g by ext <;> simp [times] <;> ring] at this

theorem Connected.chain {g₁ g₂ g₃ : Vec3 ℤ} {cands : List (List (Vec3 ℤ))} (h : Connected Lat F q M g₁ g₂ g₃ cands)
    {y y' : Vec3 ℤ} (hy : isSite Lat F y = true) (hy' : isSite Lat F y' = true) :
    Relation.ReflTransGen (fun y y' => adj Lat F q M y y' = true) y y' := by
  have key : ∀ y, isSite Lat F y = true → ∃ A ∈ F,
      Relation.ReflTransGen (fun y y' => adj Lat F q M y y' = true) A y := by
    intro y hy
    obtain ⟨A, hA, hL⟩ := List.any_eq_true.mp hy
    obtain ⟨a, b, c, e⟩ := h.gen _ hL
    refine ⟨A, hA, ?_⟩
    have st : ∀ g ∈ [g₁, g₂, g₃], Relation.ReflTransGen (fun y y' => adj Lat F q M y y' = true) A (A + g) :=
      fun g hg => by
        obtain ⟨xs, -, hx⟩ := h.step A hA g hg
        exact walk_chain hx
    have a1 := h.add g₁ (by simp)
    have a2 := h.add g₂ (by simp)
    have a3 := h.add g₃ (by simp)
    have s1 := chain_times a1 (st g₁ (by simp)) a
    have s2 := chain_move (lat_times a1 a) (chain_times a2 (st g₂ (by simp)) b)
    have s3 := chain_move (lat_times a2 b) (chain_move (lat_times a1 a) (chain_times a3 (st g₃ (by simp)) c))
    rw [vadd A (times b g₂)] at s2
    have s12 := s1.trans s2
    have s := s12.trans s3
    rw [show A + times c g₃ + times a g₁ + times b g₂ = y by
      have e1 := congrArg Vec3.x e
      have e2 := congrArg Vec3.y e
      have e3 := congrArg Vec3.z e
      ext <;> simp [times] at e1 e2 e3 ⊢ <;> linarith] at s
    exact s
  obtain ⟨A, hA, h1⟩ := key y hy
  obtain ⟨C, hC, h2⟩ := key y' hy'
  obtain ⟨xs, -, hx⟩ := h.basis A hA C hC
  exact (chain_symm h1).trans ((walk_chain hx).trans h2)

open PeriodicBuffer in
/-- Chains of sites are chains of bonds of particles. -/
theorem bonds_connected {u : UnitCell ℝ} {ρ : Vec3 ℝ} (h : InUnits u ρ Lat F) {N : ℤ} (hN : 0 < N)
    (hx : ρ.x ^ 2 = q.x / N) (hy : ρ.y ^ 2 = q.y / N) (hz : ρ.z ^ 2 = q.z / N)
    (hconn : ∀ y y', isSite Lat F y = true → isSite Lat F y' = true →
      Relation.ReflTransGen (fun y y' => adj Lat F q M y y' = true) y y')
    {c : ℝ} {n : Vec3 ℤ} {t : Vec3 ℝ} {b' : Box ℝ} {pos : List (Vec3 ℝ)} (g : Generated u c n t b' pos) {r : ℝ}
    (hr : BelowHalf b' r)
    (hnear : ∀ x : Vec3 ℤ, (∃ y y', adj Lat F q M y y' = true ∧ x = y' - y) → c * Vec3.norm (units ρ x) < r)
    (i j : ℕ) (hi : i < pos.length) (hj : j < pos.length) :
    Relation.ReflTransGen (fun i j => ∃ bd, IsQueryBond b' pos pos r 0 true bd ∧ bd.q = i ∧ bd.p = j) i j := by
  obtain ⟨o, hb⟩ := h.basis
  -- the position of a site
  set X : Vec3 ℤ → Vec3 ℝ := fun y => Vec3.smul c (units ρ y + o + comb u.box (-1 / 2) (-1 / 2) (-1 / 2) + t) with hX
  have hcomb : ∀ f : Vec3 ℝ, comb u.box (f.x - 1 / 2) (f.y - 1 / 2) (f.z - 1 / 2) =
      comb u.box f.x f.y f.z + comb u.box (-1 / 2) (-1 / 2) (-1 / 2) := by
    intro f; ext <;> simp [comb] <;> ring
  have hunits : ∀ x y, units ρ (x + y) = units ρ x + units ρ y := by
    intro x y; ext <;> simp [units] <;> ring
  have hunits' : ∀ x y, units ρ (x - y) = units ρ x - units ρ y := by
    intro x y; ext <;> simp [units] <;> ring
  have lat' : ∀ k : Vec3 ℤ, (b'.is2D = true → k.z = 0) → ∃ w, Lat w = true ∧ lattice b' k = Vec3.smul c (units ρ w) := by
    intro k hk
    obtain ⟨w, hw, e⟩ := (h.lat (lattice u.box ⟨n.x * k.x, n.y * k.y, n.z * k.z⟩)).mp
      ⟨_, fun h2 => by simp [hk (by rw [g.dim]; exact h2)], rfl⟩
    exact ⟨w, hw, by rw [g.lat, e]⟩
  have hmem : ∀ w, w ∈ pos ↔ InHalfOpen b' w ∧ ∃ y, isSite Lat F y = true ∧ w = X y := by
    intro w
    rw [g.mem w]
    refine and_congr_right fun _ => ⟨?_, ?_⟩
    · rintro ⟨f, hf, m, hm, rfl⟩
      obtain ⟨A, hA, eA⟩ := forall₂_mem_left hb hf
      obtain ⟨v, hv, ev⟩ := (h.lat _).mp ⟨m, hm, rfl⟩
      refine ⟨A + v, List.any_eq_true.mpr ⟨A, hA, ?_⟩, ?_⟩
      · rw [show A + v - A = v by ext <;> simp]; exact hv
      · rw [hX, hcomb, eA, ev]
        dsimp only
        rw [hunits]
        congr 1
        ext <;> simp <;> ring
    · rintro ⟨y, hy', rfl⟩
      obtain ⟨A, hA, hv⟩ := List.any_eq_true.mp hy'
      obtain ⟨f, hf, eA⟩ := forall₂_mem_right hb hA
      obtain ⟨m, hm, ev⟩ := (h.lat _).mpr ⟨_, hv, rfl⟩
      refine ⟨f, hf, m, hm, ?_⟩
      rw [hX, hcomb, eA, ← ev, hunits']
      dsimp only
      congr 1
      ext <;> simp <;> ring
  have form : ∀ y, isSite Lat F y = true → ∃ (f : Vec3 ℝ) (m : Vec3 ℤ),
      X y = Vec3.smul c (comb u.box (f.x - 1 / 2) (f.y - 1 / 2) (f.z - 1 / 2) + t + lattice u.box m) := by
    intro y hy'
    obtain ⟨A, hA, hv⟩ := List.any_eq_true.mp hy'
    obtain ⟨f, hf, eA⟩ := forall₂_mem_right hb hA
    obtain ⟨m, hm, ev⟩ := (h.lat _).mpr ⟨_, hv, rfl⟩
    refine ⟨f, m, ?_⟩
    rw [hX, hcomb, eA, ← ev, hunits']
    dsimp only
    congr 1
    ext <;> simp <;> ring
  have latAdd : ∀ v w, Lat v = true → Lat w = true → Lat (v + w) = true := by
    intro v w hv hw
    obtain ⟨m, hm, e⟩ := (h.lat _).mpr ⟨v, hv, rfl⟩
    obtain ⟨m', hm', e'⟩ := (h.lat _).mpr ⟨w, hw, rfl⟩
    obtain ⟨x, hx', ex⟩ := (h.lat (lattice u.box (m + m'))).mp ⟨_, fun h2 => by simp [hm h2, hm' h2], rfl⟩
    have : v + w = x := by
      refine units_inj h.nonzero ?_
      rw [← ex, hunits, e, e']
      ext <;> simp [lattice, comb] <;> ring
    rw [this]; exact hx'
  -- particle `i` is an image of site `y`
  let At : ℕ → Vec3 ℤ → Prop := fun i y => ∃ k : Vec3 ℤ, (b'.is2D = true → k.z = 0) ∧
    pos[i]? = some (X y + lattice b' k)
  have at_self : ∀ i, i < pos.length → ∃ y, isSite Lat F y = true ∧ At i y := by
    intro i hi
    obtain ⟨-, y, hy', e⟩ := (hmem pos[i]).mp (List.getElem_mem hi)
    refine ⟨y, hy', 0, fun _ => rfl, ?_⟩
    rw [List.getElem?_eq_getElem hi, e]
    congr 1
    ext <;> simp [lattice, comb]
  have planar : ∀ y, isSite Lat F y = true → Planar b' (X y) := by
    intro y hy' h2
    obtain ⟨f, m, e⟩ := form y hy'
    obtain ⟨hin, f', -, m', -, e'⟩ := (g.mem pos[i]).mp (List.getElem_mem hi)
    have hp := ((inHalfOpen_iff g.valid _).mp hin).1 h2
    have h2' := h2
    rw [g.dim] at h2'
    rw [e'] at hp
    rw [e]
    simpa [comb, lattice, a1, a2, a3, g.cell.Lz_2D h2'] using hp
  have at_site : ∀ y, isSite Lat F y = true → ∃ i, i < pos.length ∧ At i y := by
    intro y hy'
    have hin' := wrap_inHalfOpen g.valid g.periodic.1 g.periodic.2.1 g.periodic.2.2 _ (planar y hy')
    have hwr := wrap_eq_add_lattice g.valid _ (planar y hy')
    have hk' := g.allowed.mp (wrapShift_allowed b' (X y))
    obtain ⟨w, hw, ew⟩ := lat' _ hk'
    have hm : b'.wrap (X y) ∈ pos := by
      refine (hmem _).mpr ⟨hin', y + w, ?_, ?_⟩
      · obtain ⟨A, hA, hv⟩ := List.any_eq_true.mp hy'
        refine List.any_eq_true.mpr ⟨A, hA, ?_⟩
        rw [show y + w - A = y - A + w by ext <;> simp <;> ring]
        exact latAdd _ _ hv hw
      · rw [hwr, ew, hX]
        dsimp only
        rw [hunits, smul_add']
        congr 1
        ext <;> simp <;> ring
    obtain ⟨i, hi, e⟩ := List.getElem_of_mem hm
    exact ⟨i, hi, _, hk', by rw [List.getElem?_eq_getElem hi, e, hwr]⟩
  have at_unique : ∀ i j y, At i y → At j y → i = j := by
    rintro i j y ⟨k, hk, e⟩ ⟨k', hk', e'⟩
    have hi := (List.getElem?_eq_some_iff.mp e).1
    have hj := (List.getElem?_eq_some_iff.mp e').1
    have := g.image_eq (List.mem_of_getElem? e) (List.mem_of_getElem? e') (k := k' - k)
      (fun h2 => by simp [hk h2, hk' h2]) (by ext <;> simp [lattice, comb] <;> ring)
    rw [← this] at e
    rw [List.getElem?_eq_getElem hi] at e
    rw [List.getElem?_eq_getElem hj] at e'
    exact (g.nodup.getElem_inj_iff).mp ((Option.some.inj e).trans (Option.some.inj e').symm)
  have at_step : ∀ i j y y', At i y → At j y' → adj Lat F q M y y' = true →
      ∃ bd, IsQueryBond b' pos pos r 0 true bd ∧ bd.q = i ∧ bd.p = j := by
    intro i j y y' hiy hjy' hadj
    have hlt := hnear (y' - y) ⟨y, y', hadj, rfl⟩
    rw [← norm_smul_pos g.scale] at hlt
    simp only [adj, Bool.and_eq_true, decide_eq_true_eq] at hadj
    refine ⟨⟨i, j, Vec3.norm (Vec3.smul c (units ρ (y' - y))), 1, Vec3.smul c (units ρ (y' - y))⟩, ?_, rfl, rfl⟩
    obtain ⟨k, hk, e⟩ := hiy
    obtain ⟨k', hk', e'⟩ := hjy'
    have him : Vec3.smul c (units ρ (y' - y)) = X y' + lattice b' k' - (X y + lattice b' k) + lattice b' (k - k') := by
      rw [hunits', hX]
      ext <;> simp [lattice, comb] <;> ring
    refine ⟨_, e, rfl, rfl, rfl, fun _ hji => ?_, norm_nonneg' _, hlt, _, e', k - k', ?_, him⟩
    · dsimp only at hji
      subst hji
      have hz : IsImage b' ⟨0, 0, 0⟩ (Vec3.smul c (units ρ (y' - y))) := ⟨k - k', by
        rw [g.allowed]; intro h2; simp [hk h2, hk' h2], by
        rw [him]
        rw [e] at e'
        rw [Option.some.inj e']
        ext <;> simp⟩
      have h1 := (wrap_of_short g.valid hr (fun _ => rfl) hz hlt).1
      have h2 := (wrap_of_short g.valid hr (v := ⟨0, 0, 0⟩) (w := ⟨0, 0, 0⟩) (fun _ => rfl)
        ⟨⟨0, 0, 0⟩, by rw [g.allowed]; simp, by ext <;> simp [lattice, comb]⟩ (lt_of_le_of_lt (by
          rw [show Vec3.norm (⟨0, 0, 0⟩ : Vec3 ℝ) = 0 by simp [Vec3.norm, Vec3.dot]]
          exact norm_nonneg' _) hlt)).1
      have h3 : units ρ (y' - y) = ⟨0, 0, 0⟩ :=
        smul_inj g.scale ((h1.symm.trans h2).trans (by ext <;> simp))
      have h4 : y' - y = ⟨0, 0, 0⟩ := units_inj h.nonzero (h3.trans (by simp [units]))
      refine hadj.1.2 ?_
      have e1 := congrArg Vec3.x h4
      have e2 := congrArg Vec3.y h4
      have e3 := congrArg Vec3.z h4
      simp at e1 e2 e3
      ext <;> linarith
    · rw [g.allowed]; intro h2; simp [hk h2, hk' h2]
  obtain ⟨y, hy', hiy⟩ := at_self i hi
  obtain ⟨y', hy'', hjy⟩ := at_self j hj
  have hch := hconn y y' hy' hy''
  clear hy' hi
  induction hch using Relation.ReflTransGen.head_induction_on generalizing i with
  | refl => rw [at_unique i j _ hiy hjy]
  | head hab _ ih =>
    have hs := hab
    simp only [adj, Bool.and_eq_true, decide_eq_true_eq] at hs
    obtain ⟨i', hi', hat⟩ := at_site _ hs.1.1.2
    exact .head (at_step _ _ _ _ hiy hat hab) (ih i' hat)

end Chains

end Freud
