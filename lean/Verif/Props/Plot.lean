import Verif.Model.Plot
import Verif.Spec.Plot
import Verif.Lemmas.Box
import Verif.Props.Cluster
import Verif.Props.Diffraction

/-! # C105: plots show the data at the right place -/

set_option linter.unusedSectionVars false

namespace Freud

open Plot Spec

variable {K : Type*} [Field K] [LinearOrder K] [IsStrictOrderedRing K] [FloorRing K]

/-! ### Boxes and systems -/

theorem place_eq {b : Box K} (hb : Valid b) (n : Vec3 ℤ) (c : ℕ × ℕ × ℕ) :
    place b n c = boxCorner b n c.1 c.2.1 c.2.2 := by
  unfold place boxCorner lattice
  rw [makeAbsolute_eq_comb hb]
  simp only [comb]
  ext <;> simp <;> ring

theorem segments_map {α : Type*} (f : α → Vec3 K) (p : List α) :
    segments (p.map f) = ((p.zip p.tail).map fun ab => s(ab.1, ab.2)).map (Sym2.map f) := by
  unfold segments
  rw [← List.map_tail, List.zip_map, List.map_map, List.map_map]
  apply List.map_congr_left
  intro ab _
  rfl

theorem drawPaths_path (color : Option String) (ps : List (List (Vec3 K))) :
    (drawPaths color ps).map (·.path) = ps := by
  induction ps generalizing color with
  | nil => rfl
  | cons p ps ih => simp [drawPaths, ih]

/-- **C105**: the lines of a 3D box are its twelve edges, each drawn once, at the periodic image asked
for. -/
theorem C105_box_edges (b : Box K) (hb : Valid b) (h3 : b.is2D = false) (n : Vec3 ℤ)
    (color : Option String) :
    ((boxLines b n color).flatMap fun l => segments l.path).Perm (boxEdges3 b n) := by
  have e : ((boxLines b n color).flatMap fun l => segments l.path) =
      ((paths3.flatMap fun p => ((p.map fun i => corners3.getD i (0, 0, 0)).zip
        (p.map fun i => corners3.getD i (0, 0, 0)).tail).map fun ab => s(ab.1, ab.2))).map
          (Sym2.map (place b n)) := by
    have : ((boxLines b n color).flatMap fun l => segments l.path) =
        ((boxLines b n color).map (·.path)).flatMap segments := by
      rw [List.flatMap_map]
    rw [this]
    unfold boxLines
    rw [h3, if_neg (by simp), drawPaths_path, List.flatMap_map, List.map_flatMap]
    congr 1
    funext p
    rw [← segments_map, List.map_map]
    rfl
  have e' : boxEdges3 b n = (([(0, 0), (0, 1), (1, 0), (1, 1)] : List (ℕ × ℕ)).flatMap fun st =>
      [s((0, st.1, st.2), (1, st.1, st.2)), s((st.1, 0, st.2), (st.1, 1, st.2)),
       s((st.1, st.2, 0), (st.1, st.2, 1))]).map (Sym2.map (place b n)) := by
    unfold boxEdges3
    rw [List.map_flatMap]
    congr 1
    funext st
    simp [place_eq hb]
  rw [e, e']
  apply List.Perm.map
  decide

/-- **C105**: the line of a 2D box is its closed outline: its four edges, each drawn once. -/
theorem C105_box_edges_2d (b : Box K) (hb : Valid b) (h2 : b.is2D = true) (n : Vec3 ℤ)
    (color : Option String) :
    ((boxLines b n color).flatMap fun l => segments l.path).Perm (boxEdges2 b n) := by
  have hz : ∀ c, (⟨(place b n c).x, (place b n c).y, 0⟩ : Vec3 K) = place b n c := by
    intro c
    rw [place_eq hb]
    ext <;> simp [boxCorner, lattice, comb, a1, a2, a3, hb.Lz_2D h2]
  have e : ((boxLines b n color).flatMap fun l => segments l.path) =
      ((corners2.zip corners2.tail).map fun ab => s(ab.1, ab.2)).map (Sym2.map (place b n)) := by
    have : ((boxLines b n color).flatMap fun l => segments l.path) =
        ((boxLines b n color).map (·.path)).flatMap segments := by
      rw [List.flatMap_map]
    rw [this]
    unfold boxLines
    rw [h2, if_pos rfl, drawPaths_path, List.map_map]
    simp only [Function.comp_def, hz, List.flatMap_cons, List.flatMap_nil, List.append_nil]
    exact segments_map _ _
  have e' : boxEdges2 b n = (([0, 1] : List ℕ).flatMap fun s =>
      [s((0, s, 0), (1, s, 0)), s((s, 0, 0), (s, 1, 0))]).map (Sym2.map (place b n)) := by
    unfold boxEdges2
    rw [List.map_flatMap]
    congr 1
    funext st
    simp [place_eq hb]
  rw [e, e']
  apply List.Perm.map
  decide

/-- **C105**, the part that holds: a color given for a 2D box is used, and without one every line is
black. Missing: see `C105_box_color_counterexample`. -/
theorem C105_box_color_partial (b : Box K) (n : Vec3 ℤ) (color : Option String)
    (h : b.is2D = true ∨ color = none) :
    ∀ l ∈ boxLines b n color, l.color = color.getD "k" := by
  have hk : ∀ ps : List (List (Vec3 K)), ∀ l ∈ drawPaths none ps, l.color = "k" := by
    intro ps
    induction ps with
    | nil => simp [drawPaths]
    | cons p ps ih =>
      intro l hl
      rcases List.mem_cons.mp hl with rfl | hl
      · rfl
      · exact ih l hl
  intro l hl
  rcases h with h | rfl
  · unfold boxLines at hl
    rw [h, if_pos rfl] at hl
    simp only [drawPaths, List.mem_cons, List.not_mem_nil, or_false] at hl
    rw [hl]
  · unfold boxLines at hl
    split at hl
    · exact hk _ l hl
    · exact hk _ l hl

/-- **C105**: a color given for a 3D box is used for the first of the six paths only: of the twelve edges
only four get it, whatever the box. -/
theorem C105_box_color_counterexample (b : Box K) (h3 : b.is2D = false) (n : Vec3 ℤ) (color : String)
    (hc : color ≠ "k") :
    ∃ l ∈ boxLines b n (some color), l.color ≠ color := by
  unfold boxLines
  rw [h3, if_neg (by simp)]
  exact ⟨⟨_, "k"⟩, List.mem_cons_of_mem _ List.mem_cons_self, fun h => hc h.symm⟩

theorem axesEqual_visible (l : Vec3 (K × K)) (v : Vec3 K) (h : Visible l v) :
    Visible (axesEqual l) v := by
  obtain ⟨⟨h1, h2⟩, ⟨h3, h4⟩, h5, h6⟩ := h
  have m1 : l.x.2 - l.x.1 ≤ max (max (l.x.2 - l.x.1) (l.y.2 - l.y.1)) (l.z.2 - l.z.1) :=
    le_max_of_le_left (le_max_left _ _)
  have m2 : l.y.2 - l.y.1 ≤ max (max (l.x.2 - l.x.1) (l.y.2 - l.y.1)) (l.z.2 - l.z.1) :=
    le_max_of_le_left (le_max_right _ _)
  have m3 : l.z.2 - l.z.1 ≤ max (max (l.x.2 - l.x.1) (l.y.2 - l.y.1)) (l.z.2 - l.z.1) := le_max_right _ _
  unfold Visible axesEqual
  simp only
  refine ⟨⟨?_, ?_⟩, ⟨?_, ?_⟩, ?_, ?_⟩ <;> linarith

theorem axesEqual_same (l : Vec3 (K × K)) : SameScale (axesEqual l) := by
  unfold SameScale axesEqual
  constructor <;> simp only <;> ring

/-- **C105**, the part that holds: if no tilt factor is negative, every corner of the box, hence every edge,
is within the axes of its plot, and the axes have the same scale. Missing: see
`C105_box_limits_counterexample`. -/
theorem C105_box_limits_partial (b : Box K) (hb : Valid b) (hx : 0 < b.L.x) (hy : 0 < b.L.y)
    (hz : 0 < b.L.z) (h1 : 0 ≤ b.xy) (h2 : 0 ≤ b.xz) (h3 : 0 ≤ b.yz) (n : Vec3 ℤ) :
    SameScale (boxLimits b n) ∧
      ∀ x ≤ 1, ∀ y ≤ 1, ∀ z ≤ 1, Visible (boxLimits b n) (boxCorner b n x y z) := by
  refine ⟨axesEqual_same _, fun x hx1 y hy1 z hz1 => axesEqual_visible _ _ ?_⟩
  have e0 : place b n (corners3.getD 0 (0, 0, 0)) = boxCorner b n 0 0 0 := place_eq hb n _
  have e7 : place b n (corners3.getD 7 (0, 0, 0)) = boxCorner b n 1 1 1 := place_eq hb n _
  rw [e0, e7]
  have c : ∀ m : ℕ, m ≤ 1 → (0 : K) ≤ m ∧ (m : K) ≤ 1 := fun m hm => ⟨by positivity, by exact_mod_cast hm⟩
  obtain ⟨x0, x1⟩ := c x hx1
  obtain ⟨y0, y1⟩ := c y hy1
  obtain ⟨z0, z1⟩ := c z hz1
  have p1 := mul_nonneg h1 hy.le
  have p2 := mul_nonneg h2 hz.le
  have p3 := mul_nonneg h3 hz.le
  simp only [Visible, boxCorner, lattice, comb, a1, a2, a3, Vec3.add_x, Vec3.add_y, Vec3.add_z, Nat.cast_zero,
    Nat.cast_one]
  have q := mul_nonneg x0 hx.le
  have q' := mul_nonneg (sub_nonneg.mpr x1) hx.le
  have r := mul_nonneg y0 hy.le
  have r' := mul_nonneg (sub_nonneg.mpr y1) hy.le
  have s := mul_nonneg z0 hz.le
  have s' := mul_nonneg (sub_nonneg.mpr z1) hz.le
  have t := mul_nonneg y0 p1
  have t' := mul_nonneg (sub_nonneg.mpr y1) p1
  have u := mul_nonneg z0 p2
  have u' := mul_nonneg (sub_nonneg.mpr z1) p2
  have v := mul_nonneg z0 p3
  have v' := mul_nonneg (sub_nonneg.mpr z1) p3
  refine ⟨⟨?_, ?_⟩, ⟨?_, ?_⟩, ?_, ?_⟩ <;> linarith

/-- **C105**: with a negative tilt factor the corners 0 and 7 are not the extreme ones, and the plot cuts
corners of the box off. -/
theorem C105_box_limits_counterexample :
    ∃ b : Box ℚ, Valid b ∧ b.is2D = false ∧ ¬ Visible (boxLimits b ⟨0, 0, 0⟩) (boxCorner b ⟨0, 0, 0⟩ 0 1 0) := by
  refine ⟨Box.mk' 1 1 1 (-1 / 2) 0 0 false, ⟨?_, ?_, ?_, ?_, ?_⟩, rfl, ?_⟩
  · decide +kernel
  · decide +kernel
  · decide +kernel
  · intro _
    decide +kernel
  · decide +kernel
  · unfold Visible
    decide +kernel

theorem foldl_min_le {α M : Type*} [LinearOrder M] (f : α → M) (ps : List α) (p : α) :
    ∀ q ∈ p :: ps, (ps.map f).foldl min (f p) ≤ f q := by
  have : ∀ (ps : List α) (m : M), (ps.map f).foldl min m ≤ m ∧ ∀ q ∈ ps, (ps.map f).foldl min m ≤ f q := by
    intro ps
    induction ps with
    | nil => simp
    | cons q ps ih =>
      intro m
      obtain ⟨h1, h2⟩ := ih (min m (f q))
      refine ⟨h1.trans (min_le_left _ _), fun r hr => ?_⟩
      rcases List.mem_cons.mp hr with rfl | hr
      · exact h1.trans (min_le_right _ _)
      · exact h2 r hr
  intro q hq
  rcases List.mem_cons.mp hq with rfl | hq
  · exact (this ps _).1
  · exact (this ps _).2 q hq

theorem le_foldl_max {α M : Type*} [LinearOrder M] (f : α → M) (ps : List α) (p : α) :
    ∀ q ∈ p :: ps, f q ≤ (ps.map f).foldl max (f p) := by
  have : ∀ (ps : List α) (m : M), m ≤ (ps.map f).foldl max m ∧ ∀ q ∈ ps, f q ≤ (ps.map f).foldl max m := by
    intro ps
    induction ps with
    | nil => simp
    | cons q ps ih =>
      intro m
      obtain ⟨h1, h2⟩ := ih (max m (f q))
      refine ⟨(le_max_left _ _).trans h1, fun r hr => ?_⟩
      rcases List.mem_cons.mp hr with rfl | hr
      · exact (le_max_right _ _).trans h1
      · exact h2 r hr
  intro q hq
  rcases List.mem_cons.mp hq with rfl | hq
  · exact (this ps _).1
  · exact (this ps _).2 q hq

/-- **C105**: the axes of the plot of a 3D system have the same scale and show every point, wherever it
is. -/
theorem C105_system_limits (b : Box K) (points : List (Vec3 K)) (h : points ≠ []) :
    ∃ l, systemLimits b points = some l ∧ SameScale l ∧ ∀ p ∈ points, Visible l p := by
  match points, h with
  | p :: ps, _ =>
    refine ⟨_, rfl, axesEqual_same _, fun q hq => axesEqual_visible _ _ ?_⟩
    refine ⟨⟨?_, ?_⟩, ⟨?_, ?_⟩, ?_, ?_⟩
    · exact (min_le_right _ _).trans (foldl_min_le (·.x) ps p q hq)
    · exact (le_foldl_max (·.x) ps p q hq).trans (le_max_right _ _)
    · exact (min_le_right _ _).trans (foldl_min_le (·.y) ps p q hq)
    · exact (le_foldl_max (·.y) ps p q hq).trans (le_max_right _ _)
    · exact (min_le_right _ _).trans (foldl_min_le (·.z) ps p q hq)
    · exact (le_foldl_max (·.z) ps p q hq).trans (le_max_right _ _)

/-! ### Bars -/

theorem mem_unique (values : List ℕ) (v c : ℕ) :
    (v, c) ∈ unique values ↔ v ∈ values ∧ c = values.count v := by
  unfold unique
  simp only [List.mem_map, List.mem_mergeSort, List.mem_dedup, Prod.mk.injEq]
  constructor
  · rintro ⟨a, ha, rfl, rfl⟩
    exact ⟨ha, rfl⟩
  · rintro ⟨h, rfl⟩
    exact ⟨v, h, rfl, rfl⟩

theorem unique_sorted (values : List ℕ) : (unique values).Pairwise fun a b => a.1 < b.1 := by
  unfold unique
  rw [List.pairwise_map]
  have h1 : (values.dedup.mergeSort fun a b => decide (a ≤ b)).Pairwise fun a b => a ≤ b := by
    have := List.pairwise_mergeSort (le := fun a b : ℕ => decide (a ≤ b)) (by simpa using fun a b c => le_trans)
      (by simpa using le_total) values.dedup
    simpa using this
  have h2 : (values.dedup.mergeSort fun a b => decide (a ≤ b)).Nodup :=
    (List.mergeSort_perm _ _).nodup_iff.mpr (List.nodup_dedup _)
  exact (h1.and h2).imp fun ⟨h, h'⟩ => lt_of_le_of_ne h h'

/-- The order of the bars: larger clusters first, and of equal ones the one with the smaller label. -/
def Spec.BarBefore (a b : ℕ × ℕ) : Prop := b.2 < a.2 ∨ b.2 = a.2 ∧ a.1 < b.1

theorem sort_bars (l : List (ℕ × ℕ)) (h : l.Pairwise fun a b => a.1 < b.1) :
    (l.mergeSort fun a b => decide (b.2 ≤ a.2)).Pairwise BarBefore := by
  have tr : ∀ a b c : ℕ × ℕ, decide (b.2 ≤ a.2) = true → decide (c.2 ≤ b.2) = true → decide (c.2 ≤ a.2) = true := by
    simp only [decide_eq_true_eq]
    intro a b c h1 h2
    omega
  have tot : ∀ a b : ℕ × ℕ, (decide (b.2 ≤ a.2) || decide (a.2 ≤ b.2)) = true := by
    simp only [Bool.or_eq_true, decide_eq_true_eq]
    intro a b
    omega
  have hs := List.pairwise_mergeSort (le := fun a b : ℕ × ℕ => decide (b.2 ≤ a.2)) tr tot l
  have hp := List.mergeSort_perm l fun a b : ℕ × ℕ => decide (b.2 ≤ a.2)
  have hn : (l.mergeSort fun a b => decide (b.2 ≤ a.2)).Nodup :=
    hp.nodup_iff.mpr (h.imp fun hab he => by rw [he] at hab; exact lt_irrefl _ hab)
  set s := l.mergeSort fun a b => decide (b.2 ≤ a.2) with hsdef
  have hidx : s.Pairwise fun a b => s.idxOf a < s.idxOf b := by
    rw [List.pairwise_iff_getElem]
    intro i j hi hj hij
    rw [hn.idxOf_getElem, hn.idxOf_getElem]
    exact hij
  rw [List.pairwise_iff_forall_sublist] at hs hidx ⊢
  intro a b hab
  have h1 := hs hab
  simp only [decide_eq_true_eq] at h1
  rcases Nat.lt_or_ge b.2 a.2 with hlt | hge
  · exact .inl hlt
  · have he : b.2 = a.2 := le_antisymm h1 hge
    refine .inr ⟨he, ?_⟩
    have hma : a ∈ l := hp.subset (hab.subset (by simp))
    have hmb : b ∈ l := hp.subset (hab.subset (by simp))
    have hi := hidx hab
    obtain ⟨l1, l2, rfl⟩ := List.append_of_mem hma
    rw [List.mem_append, List.mem_cons] at hmb
    rcases hmb with hb | rfl | hb
    · exfalso
      have hsub : [b, a].Sublist (l1 ++ a :: l2) :=
        (List.singleton_sublist.mpr hb).append (List.singleton_sublist.mpr (by simp))
      have := hidx (List.pair_sublist_mergeSort (le := fun a b : ℕ × ℕ => decide (b.2 ≤ a.2)) tr tot
        (by simp [he]) hsub)
      omega
    · omega
    · have hsub : [a, b].Sublist (l1 ++ a :: l2) := by
        refine List.Sublist.trans ?_ (List.sublist_append_right l1 _)
        exact (List.singleton_sublist.mpr hb).cons_cons a
      rw [List.pairwise_iff_forall_sublist] at h
      exact h hsub

/-- **C105**: the bars of `Cluster.plot` and of `EnvironmentCluster.plot`. Each bar stands for a label that
occurs and is as high as the number of points with it. The bars are ordered by height, equal ones by label.
There are ten, or as many as there are labels. A label without a bar comes after all those with one. -/
theorem C105_clusters (clusterIdx : List ℕ) :
    (∀ a ∈ clusterPlot clusterIdx, a.1 ∈ clusterIdx ∧ a.2 = clusterIdx.count a.1) ∧
      (clusterPlot clusterIdx).Pairwise BarBefore ∧
      (clusterPlot clusterIdx).length = min 10 clusterIdx.dedup.length ∧
      ∀ v ∈ clusterIdx, (∃ a ∈ clusterPlot clusterIdx, a.1 = v) ∨
        ∀ a ∈ clusterPlot clusterIdx, BarBefore a (v, clusterIdx.count v) := by
  have hs := sort_bars _ (unique_sorted clusterIdx)
  have hp := List.mergeSort_perm (unique clusterIdx) fun a b : ℕ × ℕ => decide (b.2 ≤ a.2)
  unfold clusterPlot clusterBars
  set s := (unique clusterIdx).mergeSort fun a b => decide (b.2 ≤ a.2) with hsdef
  refine ⟨fun a ha => ?_, hs.sublist (List.take_sublist _ _), ?_, fun v hv => ?_⟩
  · exact (mem_unique clusterIdx a.1 a.2).mp (hp.subset (List.mem_of_mem_take ha))
  · rw [List.length_take, hp.length_eq]
    simp [unique]
  · have hm : (v, clusterIdx.count v) ∈ s := hp.symm.subset ((mem_unique _ _ _).mpr ⟨hv, rfl⟩)
    rw [← List.take_append_drop 10 s, List.mem_append] at hm
    rcases hm with hm | hm
    · exact .inl ⟨_, hm, rfl⟩
    · right
      rw [← List.take_append_drop 10 s, List.pairwise_append] at hs
      exact fun a ha => hs.2.2 a ha _ hm

theorem count_eq_size (l : List ℕ) (c : ℕ) :
    l.count c = clusterSize l.length (fun i => l.getD i 0) c := by
  have e : l = (List.range l.length).map fun i => l.getD i 0 := by
    apply List.ext_getElem
    · simp
    · intro i h1 h2
      simp [h1]
  unfold clusterSize
  conv_lhs => rw [e]
  rw [List.count, List.countP_map, List.countP_eq_length_filter]
  congr 1

/-- **C105** for `Cluster`: whatever the bonds and the interleaving, the bars are those of the clusters
0, 1, 2, ..., in this order, and the height of a bar is the number of points in the cluster. -/
theorem C105_cluster_plot (n : ℕ) (work : List (List (ℕ × ℕ)))
    (hb : ∀ e ∈ work.flatten, e.1 < n ∧ e.2 < n) (s : DSet.DState) (hr : DSet.Reachable n work s)
    (hfin : ∀ t ∈ s.threads, t.finished) (key : ℕ → ℕ) (res : Cluster.Result)
    (hres : Cluster.Finish n s.mem key res) :
    clusterPlot res.clusterIdx = (List.range (min 10 res.num)).map fun c =>
      (c, clusterSize n (fun i => res.clusterIdx.getD i 0) c) := by
  obtain ⟨hlen, -, -, hcan, -⟩ := C33_cluster_labels n work hb s hr hfin key res hres
  have hcount : ∀ c, res.clusterIdx.count c = clusterSize n (fun i => res.clusterIdx.getD i 0) c := by
    intro c
    rw [count_eq_size, hlen]
  set T := (List.range res.num).map fun c => (c, clusterSize n (fun i => res.clusterIdx.getD i 0) c) with hT
  have hTs : T.Pairwise BarBefore := by
    rw [hT, List.pairwise_map, List.pairwise_iff_getElem]
    intro i j hi hj hij
    simp only [List.getElem_range]
    rw [List.length_range] at hj
    rcases hcan.order i j hij hj with h | ⟨h, -⟩
    · exact .inl h
    · exact .inr ⟨h, hij⟩
  have hmem : ∀ v, v ∈ res.clusterIdx ↔ v < res.num := by
    intro v
    constructor
    · intro h
      obtain ⟨i, hi, rfl⟩ := List.mem_iff_getElem.mp h
      have := hcan.range i (hlen ▸ hi)
      simpa [hi] using this
    · intro h
      obtain ⟨i, hi, he⟩ := hcan.onto v h
      rw [← hlen] at hi
      have : res.clusterIdx[i] = v := by simpa [hi] using he
      exact this ▸ List.getElem_mem hi
  have hn : ∀ l : List (ℕ × ℕ), l.Pairwise BarBefore → l.Nodup := fun l h =>
    h.imp fun hab he => by
      unfold BarBefore at hab
      rw [he] at hab
      omega
  have hs := sort_bars _ (unique_sorted res.clusterIdx)
  have hperm : ((unique res.clusterIdx).mergeSort fun a b => decide (b.2 ≤ a.2)).Perm T := by
    rw [List.perm_ext_iff_of_nodup (hn _ hs) (hn _ hTs)]
    rintro ⟨v, c⟩
    rw [List.mem_mergeSort, mem_unique, hmem, hcount, hT]
    simp only [List.mem_map, List.mem_range, Prod.mk.injEq]
    constructor
    · rintro ⟨h, rfl⟩
      exact ⟨v, h, rfl, rfl⟩
    · rintro ⟨a, h, rfl, rfl⟩
      exact ⟨h, rfl⟩
  have heq : ((unique res.clusterIdx).mergeSort fun a b => decide (b.2 ≤ a.2)) = T := by
    refine hperm.eq_of_pairwise (le := BarBefore) ?_ hs hTs
    intro a b _ _ h1 h2
    unfold BarBefore at h1 h2
    omega
  unfold clusterPlot clusterBars
  rw [heq, hT, ← List.map_take, List.take_range]

/-! ### Images -/

/-- The pixel of a point inside of bin `i`. -/
theorem floor_bin {lo hi x : K} {n i : ℕ} (h : InsideBin lo hi n i x) (hlt : lo < hi) :
    lo < x ∧ x < hi ∧ ⌊(x - lo) / (hi - lo) * n⌋.toNat = i ∧
      ⌊(hi - x) / (hi - lo) * n⌋.toNat = n - 1 - i := by
  obtain ⟨hi', h1, h2⟩ := h
  have hn : (0 : K) < n := by exact_mod_cast (by omega : 0 < n)
  have hd : 0 < hi - lo := sub_pos.mpr hlt
  have hw : 0 < (hi - lo) / n := div_pos hd hn
  have e : (hi - lo) / n * n = hi - lo := div_mul_cancel₀ _ hn.ne'
  have hin : (i : K) + 1 ≤ n := by exact_mod_cast hi'
  have h0 : (0 : K) ≤ i := by positivity
  have lox : lo < x := lt_of_le_of_lt (by have := mul_nonneg h0 hw.le; linarith) h1
  have xhi : x < hi := by
    have := mul_le_mul_of_nonneg_right hin hw.le
    rw [mul_comm (n : K), e] at this
    linarith
  have k1 : (i : K) < (x - lo) / (hi - lo) * n := by
    rw [div_mul_eq_mul_div, lt_div_iff₀ hd, ← sub_pos]
    have : (x - lo) * n - i * (hi - lo) = (x - (lo + i * ((hi - lo) / n))) * n := by
      linear_combination (i : K) * e
    rw [this]
    exact mul_pos (by linarith) hn
  have k2 : (x - lo) / (hi - lo) * n < i + 1 := by
    rw [div_mul_eq_mul_div, div_lt_iff₀ hd, ← sub_pos]
    have : (i + 1) * (hi - lo) - (x - lo) * n = (lo + (i + 1) * ((hi - lo) / n) - x) * n := by
      linear_combination -((i : K) + 1) * e
    rw [this]
    exact mul_pos (by linarith) hn
  have k3 : (hi - x) / (hi - lo) * n = n - (x - lo) / (hi - lo) * n := by
    rw [show hi - x = (hi - lo) - (x - lo) by ring, sub_div, div_self hd.ne']
    ring
  refine ⟨lox, xhi, ?_, ?_⟩
  · have : ⌊(x - lo) / (hi - lo) * n⌋ = (i : ℤ) := by
      rw [Int.floor_eq_iff]
      push_cast
      exact ⟨k1.le, k2⟩
    rw [this]
    simp
  · have : ⌊(hi - x) / (hi - lo) * n⌋ = ((n - 1 - i : ℕ) : ℤ) := by
      rw [k3, Int.floor_eq_iff]
      have c : ((n - 1 - i : ℕ) : K) = n - 1 - i := by
        rw [Nat.cast_sub (by omega), Nat.cast_sub (by omega)]
        simp
      push_cast
      rw [c]
      constructor <;> linarith
    rw [this]
    simp

/-- What an image shows at a point inside of column `c`, counted from the left, and of row `r`, counted from
the bottom. -/
theorem shown_bin {α : Type*} (im : Image K α) (h1 : im.left < im.right) (h2 : im.bottom < im.top)
    {x y : K} {r c : ℕ} (hx : InsideBin im.left im.right im.cols c x)
    (hy : InsideBin im.bottom im.top im.rows r y) :
    im.shown x y = some (im.entry (im.rows - 1 - r) c) := by
  obtain ⟨a1, a2, a3, -⟩ := floor_bin hx h1
  obtain ⟨b1, b2, -, b4⟩ := floor_bin hy h2
  unfold Image.shown
  rw [if_pos ⟨a1, a2, b1, b2⟩, a3, b4]

/-- **C105**: the picture of a 2D density shows at the point `(x, y)` the density of the voxel that contains
the point: voxel `[i, j]` is the `i`-th of `nx` along x and the `j`-th of `ny` along y. -/
theorem C105_density {α : Type*} (nx ny : ℕ) (density : ℕ → ℕ → α) (b : Box K) (hx : 0 < b.L.x)
    (hy : 0 < b.L.y) (i j : ℕ) (x y : K) (hi : InsideBin (-b.L.x / 2) (b.L.x / 2) nx i x)
    (hj : InsideBin (-b.L.y / 2) (b.L.y / 2) ny j y) :
    (densityImage nx ny density b).shown x y = some (density i j) := by
  have := shown_bin (densityImage nx ny density b) (by show -b.L.x / 2 < b.L.x / 2; linarith)
    (by show -b.L.y / 2 < b.L.y / 2; linarith) hi hj
  rw [this]
  unfold densityImage flipud
  simp only
  rw [show ny - 1 - (ny - 1 - j) = j by have := hj.1; omega]

/-- **C105**, the part that holds: the picture of a PMFT shows at `(x, y)` the value of the bin that contains
the point if there are as many bins along x as along y and the PMFT does not change when x and y are
exchanged. Missing: see `C105_pmft_counterexample`. -/
theorem C105_pmft_partial {α : Type*} (n : ℕ) (pmft : ℕ → ℕ → α) (hsym : ∀ i j, pmft i j = pmft j i)
    (xlims ylims : K × K) (hx : xlims.1 < xlims.2) (hy : ylims.1 < ylims.2) (i j : ℕ) (x y : K)
    (hi : InsideBin xlims.1 xlims.2 n i x) (hj : InsideBin ylims.1 ylims.2 n j y) :
    (pmftImage n n pmft xlims ylims).shown x y = some (pmft i j) := by
  rw [shown_bin (pmftImage n n pmft xlims ylims) hx hy hi hj, hsym i j]
  unfold pmftImage flipud
  simp only
  rw [show n - 1 - (n - 1 - j) = j by have := hj.1; omega]

/-- **C105**: the picture of a PMFT is drawn with x and y exchanged: inside of bin `[i, j]` it shows the
value of bin `[j, i]`, whatever the PMFT, and with different numbers of bins along x and y it mixes the bins
up. -/
theorem C105_pmft_counterexample :
    (∀ (n : ℕ) (pmft : ℕ → ℕ → K) (xlims ylims : K × K), xlims.1 < xlims.2 → ylims.1 < ylims.2 →
      ∀ (i j : ℕ) (x y : K), InsideBin xlims.1 xlims.2 n i x → InsideBin ylims.1 ylims.2 n j y →
        (pmftImage n n pmft xlims ylims).shown x y = some (pmft j i)) ∧
    ∃ (pmft : ℕ → ℕ → ℚ) (x y : ℚ), InsideBin (-1) 1 4 2 x ∧ InsideBin (-1) 1 2 1 y ∧ pmft 2 1 = 1 ∧
      (pmftImage 4 2 pmft (-1, 1) (-1, 1)).shown x y = some 0 := by
  constructor
  · intro n pmft xlims ylims hx hy i j x y hi hj
    rw [shown_bin (pmftImage n n pmft xlims ylims) hx hy hi hj]
    unfold pmftImage flipud
    simp only
    rw [show n - 1 - (n - 1 - j) = j by have := hj.1; omega]
  · refine ⟨fun i j => if i = 2 ∧ j = 1 then 1 else 0, 1 / 4, 7 / 8, ?_, ?_, ?_, ?_⟩
    · unfold InsideBin
      norm_num
    · unfold InsideBin
      norm_num
    · rfl
    · decide +kernel

theorem le_least {c a : K} {cs : List K} (h : ∀ x ∈ c :: cs, a ≤ x) : a ≤ least c cs := by
  unfold least
  induction cs generalizing c with
  | nil => simpa using h
  | cons d cs ih =>
    refine ih fun x hx => ?_
    rcases List.mem_cons.mp hx with rfl | hx
    · exact le_min (h _ (by simp)) (h _ (by simp))
    · exact h x (by simp [hx])

theorem greatest_le {c a : K} {cs : List K} (h : ∀ x ∈ c :: cs, x ≤ a) : greatest c cs ≤ a := by
  unfold greatest
  induction cs generalizing c with
  | nil => simpa using h
  | cons d cs ih =>
    refine ih fun x hx => ?_
    rcases List.mem_cons.mp hx with rfl | hx
    · exact max_le (h _ (by simp)) (h _ (by simp))
    · exact h x (by simp [hx])

theorem least_le {c : K} {cs : List K} : ∀ x ∈ c :: cs, least c cs ≤ x := by
  have := foldl_min_le (fun x : K => x) cs c
  simpa [least] using this

theorem le_greatest {c : K} {cs : List K} : ∀ x ∈ c :: cs, x ≤ greatest c cs := by
  have := le_foldl_max (fun x : K => x) cs c
  simpa [greatest] using this

/-- `k_values` as `C84_wave_vectors` gives them: equally spaced, with 0 at index `n // 2`. -/
def Spec.EquallySpaced (n : ℕ) (k : ℕ → K) : Prop :=
  ∃ c : K, 0 < c ∧ ∀ i < n, k i = c * ((i : K) - ((n / 2 : ℕ) : K))

theorem inside_pixel (n : ℕ) (k : ℕ → K) (h : EquallySpaced n k) (j : ℕ) (h0 : 0 < j) (h1 : j + 1 < n) :
    least (k 0) ((List.range n).map k) < greatest (k 0) ((List.range n).map k) ∧
      InsideBin (least (k 0) ((List.range n).map k)) (greatest (k 0) ((List.range n).map k)) n j (k j) := by
  obtain ⟨c, hc, hk⟩ := h
  have hmem : ∀ x ∈ k 0 :: (List.range n).map k, ∃ i < n, x = k i := by
    intro x hx
    rcases List.mem_cons.mp hx with rfl | hx
    · exact ⟨0, by omega, rfl⟩
    · obtain ⟨i, hi, rfl⟩ := List.mem_map.mp hx
      exact ⟨i, List.mem_range.mp hi, rfl⟩
  have hin : ∀ i < n, k i ∈ k 0 :: (List.range n).map k := fun i hi =>
    List.mem_cons_of_mem _ (List.mem_map.mpr ⟨i, List.mem_range.mpr hi, rfl⟩)
  have hmono : ∀ i < n, ∀ j < n, i ≤ j → k i ≤ k j := by
    intro i hi j hj hij
    rw [hk i hi, hk j hj]
    have : (i : K) ≤ j := by exact_mod_cast hij
    exact mul_le_mul_of_nonneg_left (by linarith) hc.le
  have e1 : least (k 0) ((List.range n).map k) = k 0 := by
    refine le_antisymm (least_le _ (by simp)) (le_least fun x hx => ?_)
    obtain ⟨i, hi, rfl⟩ := hmem x hx
    exact hmono 0 (by omega) i hi (by omega)
  have e2 : greatest (k 0) ((List.range n).map k) = k (n - 1) := by
    refine le_antisymm (greatest_le fun x hx => ?_) (le_greatest _ (hin _ (by omega)))
    obtain ⟨i, hi, rfl⟩ := hmem x hx
    exact hmono i hi _ (by omega) (by omega)
  have hn : (0 : K) < n := by exact_mod_cast (by omega : 0 < n)
  have hj0 : (0 : K) < j := by exact_mod_cast h0
  have hj1 : (j : K) + 1 < n := by exact_mod_cast h1
  have cn : ((n - 1 : ℕ) : K) = n - 1 := by rw [Nat.cast_sub (by omega)]; simp
  have ed : k (n - 1) - k 0 = c * (n - 1) := by
    rw [hk _ (by omega), hk 0 (by omega), cn]
    push_cast
    ring
  rw [e1, e2]
  refine ⟨?_, by omega, ?_, ?_⟩
  · rw [← sub_pos, ed]
    exact mul_pos hc (by linarith)
  · rw [ed, hk j (by omega), hk 0 (by omega), ← sub_pos]
    have : c * ((j : K) - ((n / 2 : ℕ) : K)) - (c * (((0 : ℕ) : K) - ((n / 2 : ℕ) : K)) + j * (c * (n - 1) / n)) =
        c * j / n := by
      field_simp
      push_cast
      ring
    rw [this]
    positivity
  · rw [ed, hk j (by omega), hk 0 (by omega), ← sub_pos]
    have : (c * (((0 : ℕ) : K) - ((n / 2 : ℕ) : K)) + (j + 1) * (c * (n - 1) / n)) -
        c * ((j : K) - ((n / 2 : ℕ) : K)) = c * (n - (j + 1)) / n := by
      field_simp
      push_cast
      ring
    rw [this]
    exact div_pos (mul_pos hc (by linarith)) hn

theorem diffraction_shown (n : ℕ) (d : ℕ → ℕ → K) (k : ℕ → K) (hk : EquallySpaced n k) (numPoints : ℕ)
    (vmin vmax : Option K) (i j : ℕ) (hi : 0 < i) (hi' : i + 1 < n) (hj : 0 < j) (hj' : j + 1 < n) :
    (diffractionImage n d k numPoints vmin vmax).shown (k j) (k i) =
      some (clip (vmin.getD (4 / 1000000 * numPoints)) (vmax.getD (7 / 10 * numPoints))
        (d (n - 1 - i) j)) := by
  obtain ⟨h1, h2⟩ := inside_pixel n k hk j hj hj'
  obtain ⟨-, h3⟩ := inside_pixel n k hk i hi hi'
  exact shown_bin (diffractionImage n d k numPoints vmin vmax) h1 h1 h2 h3

/-- **C105**, the part that holds: if the pattern does not change when `ky` is reversed, the picture of a
diffraction pattern shows at the wave vector `(k_values[j], k_values[i])` the clipped value of
`diffraction[i, j]`. The outermost pixels, whose wave vectors lie on the border of the picture, are left out.
Missing: see `C105_diffraction_counterexample`. -/
theorem C105_diffraction_partial (n : ℕ) (d : ℕ → ℕ → K) (k : ℕ → K) (hk : EquallySpaced n k)
    (hsym : ∀ i < n, ∀ j < n, d (n - 1 - i) j = d i j) (numPoints : ℕ) (vmin vmax : Option K) (i j : ℕ)
    (hi : 0 < i) (hi' : i + 1 < n) (hj : 0 < j) (hj' : j + 1 < n) :
    (diffractionImage n d k numPoints vmin vmax).shown (k j) (k i) =
      some (clip (vmin.getD (4 / 1000000 * numPoints)) (vmax.getD (7 / 10 * numPoints)) (d i j)) := by
  rw [diffraction_shown n d k hk numPoints vmin vmax i j hi hi' hj hj', hsym i (by omega) j (by omega)]

/-- Two points along the diagonal, on the sites of a grid of 4 by 4. -/
noncomputable def Diffraction.diagonal : Diffraction.Args :=
  ⟨Diffraction.unitCube, [⟨0, 0, 0⟩, ⟨1 / 4, 1 / 4, 0⟩], none, 1, 0, none⟩

open Diffraction in
/-- **C105**: the picture of a diffraction pattern is upside down. In every picture the wave vector
`(k_values[j], k_values[i])` gets the value of `diffraction[n - 1 - i, j]`. For two points along the
diagonal the picture shows at a wave vector for which the structure factor is 0 the brightest color. -/
theorem C105_diffraction_counterexample :
    (∀ (n : ℕ) (d : ℕ → ℕ → ℝ) (k : ℕ → ℝ), EquallySpaced n k → ∀ (numPoints : ℕ) (vmin vmax : ℝ) (i j : ℕ),
      0 < i → i + 1 < n → 0 < j → j + 1 < n →
      (diffractionImage n d k numPoints (some vmin) (some vmax)).shown (k j) (k i) =
        some (clip vmin vmax (d (n - 1 - i) j))) ∧
    ∃ (a : Args) (d : ℕ → ℕ → ℝ) (k : ℕ → ℝ) (i : ℕ), CubeBox a.box 1 ∧ a.view = none ∧ a.weights = none ∧
      a.peakWidth = 0 ∧ a.points.length = 2 ∧
      (∀ junk junk', (after 4 5 junk junk' [.compute a true]).diffraction = some (some d) ∧
        ∃ k', (after 4 5 junk junk' [.compute a true]).readKValues.2 = some k' ∧ ∀ i < 5, k' i = k i) ∧
      staticS a.points ⟨k i, k i, 0⟩ = 0 ∧
      (diffractionImage 5 d k 2 none none).shown (k i) (k i) = some (7 / 10 * 2) := by
  constructor
  · intro n d k hk numPoints vmin vmax i j hi hi' hj hj'
    exact diffraction_shown n d k hk numPoints _ _ i j hi hi' hj hj'
  obtain ⟨d, e, h⟩ := C84_structure_factor 4 5 diagonal 1 unitCube_ok (by simp [diagonal]) rfl rfl
    (by norm_num [diagonal]) (by
      intro p hp
      simp only [diagonal, List.mem_cons, List.not_mem_nil, or_false] at hp
      rcases hp with rfl | rfl
      · exact ⟨2, 2, by norm_num, by norm_num, by norm_num, by norm_num⟩
      · exact ⟨3, 3, by norm_num, by norm_num, by norm_num, by norm_num⟩)
  have hl : lastArgs 4 5 [.compute diagonal true] = some diagonal := by simp [lastArgs, e]
  have hf : framesSinceReset 4 5 [.compute diagonal true] = [d].map some := by simp [framesSinceReset, e]
  have hS1 : staticS diagonal.points ⟨2 * Real.pi, -(2 * Real.pi), 0⟩ = 2 := by
    unfold staticS diagonal
    simp only [Vec3.dot, List.map_cons, List.map_nil, List.sum_cons, List.sum_nil]
    rw [show -((2 * Real.pi * 0 + -(2 * Real.pi) * 0 + 0 * 0 : ℝ) : ℂ) * Complex.I = 0 by push_cast; ring,
      show -((2 * Real.pi * (1 / 4) + -(2 * Real.pi) * (1 / 4) + 0 * 0 : ℝ) : ℂ) * Complex.I = 0 by
        push_cast; ring, Complex.exp_zero]
    simp [Complex.normSq_apply]
    norm_num
  have hS2 : staticS diagonal.points ⟨2 * Real.pi, 2 * Real.pi, 0⟩ = 0 := by
    unfold staticS diagonal
    simp only [Vec3.dot, List.map_cons, List.map_nil, List.sum_cons, List.sum_nil]
    rw [show -((2 * Real.pi * 0 + 2 * Real.pi * 0 + 0 * 0 : ℝ) : ℂ) * Complex.I = 0 by push_cast; ring,
      show -((2 * Real.pi * (1 / 4) + 2 * Real.pi * (1 / 4) + 0 * 0 : ℝ) : ℂ) * Complex.I =
        -(Real.pi : ℝ) * Complex.I by push_cast; ring, exp_pi, Complex.exp_zero]
    simp
  have hd : d 1 3 = 2 := by
    rw [h 1 3 1 (-1) (by norm_num [diagonal]) (by norm_num [diagonal]) (by norm_num) (by norm_num)
      (by norm_num) (by norm_num)]
    have : (⟨2 * Real.pi / 1 * ((1 : ℤ) : ℝ), 2 * Real.pi / 1 * ((-1 : ℤ) : ℝ), 0⟩ : Vec3 ℝ) =
        ⟨2 * Real.pi, -(2 * Real.pi), 0⟩ := by
      ext <;> simp
    rw [this, hS1]
    simp [diagonal]
  have hk : EquallySpaced 5 fun i : ℕ => 2 * Real.pi * ((i : ℝ) - ((5 / 2 : ℕ) : ℝ)) :=
    ⟨2 * Real.pi, by positivity, fun i _ => rfl⟩
  refine ⟨diagonal, d, fun i => 2 * Real.pi * ((i : ℝ) - ((5 / 2 : ℕ) : ℝ)), 3, unitCube_ok, rfl, rfl, rfl,
    rfl, fun junk junk' => ⟨?_, ?_⟩, ?_, ?_⟩
  · rw [(C84_average 4 5 junk junk' _).2 [d] (by rw [hl]; simp) hf (by simp)]
    simp
  · obtain ⟨kv, ks, e1, -, h3, -⟩ := C84_wave_vectors 4 5 junk junk' _ diagonal 1 unitCube_ok hl
    refine ⟨kv, e1, fun i hi => ?_⟩
    rw [h3 i hi]
    simp [diagonal]
  · have : (2 * Real.pi * (((3 : ℕ) : ℝ) - ((5 / 2 : ℕ) : ℝ))) = 2 * Real.pi := by norm_num
    simp only [this]
    exact hS2
  · rw [diffraction_shown 5 d _ hk 2 none none 3 3 (by norm_num) (by norm_num) (by norm_num) (by norm_num)]
    rw [show 5 - 1 - 3 = 1 from rfl, hd]
    norm_num [clip]

/-! ### Colors of a Voronoi diagram -/

/-- **C105**: cells colored by their number of sides. The cells with `m` sides get color number
`m - (least number of sides)` of as many colors as there are numbers from the least to the greatest, and this
is the color that the color bar has at `m`. In particular different numbers have different colors. -/
theorem C105_voronoi_sides (c : ℕ) (cs : List ℕ) :
    ∃ r, cellColors ((c :: cs).map fun m : ℕ => (m : K)) = some r ∧
      r.values = (c :: cs).map (fun m : ℕ => (m : K) - 1 / 2) ∧
      ∀ m ∈ c :: cs, ∃ i : ℕ, i < numColors c cs ∧ i + cs.foldl min c = m ∧
        colorOf (numColors c cs) r.lo r.hi ((m : K) - 1 / 2) = i ∧
        colorOf (numColors c cs) r.lo r.hi (m : K) = i := by
  have c1 : ∀ (l : List ℕ) (c : ℕ), least (c : K) (l.map fun m : ℕ => (m : K)) = ((l.foldl min c : ℕ) : K) := by
    intro l
    induction l with
    | nil => intro c; rfl
    | cons d l ih =>
      intro c
      show least (min (c : K) d) _ = _
      rw [← Nat.cast_min, ih]
      rfl
  have c2 : ∀ (l : List ℕ) (c : ℕ),
      greatest (c : K) (l.map fun m : ℕ => (m : K)) = ((l.foldl max c : ℕ) : K) := by
    intro l
    induction l with
    | nil => intro c; rfl
    | cons d l ih =>
      intro c
      show greatest (max (c : K) d) _ = _
      rw [← Nat.cast_max, ih]
      rfl
  have b1 : ∀ m ∈ c :: cs, cs.foldl min c ≤ m ∧ m ≤ cs.foldl max c := by
    intro m hm
    have h1 := foldl_min_le (fun m : ℕ => m) cs c m hm
    have h2 := le_foldl_max (fun m : ℕ => m) cs c m hm
    simp only [List.map_id'] at h1 h2
    exact ⟨h1, h2⟩
  refine ⟨_, rfl, by simp, fun m hm => ?_⟩
  obtain ⟨h1, h2⟩ := b1 m hm
  unfold numColors
  simp only [c1, c2]
  set lo := cs.foldl min c
  set hi := cs.foldl max c
  have hlh : lo ≤ hi := h1.trans h2
  have hceil : ⌈(hi : K) + 1 - (lo : K)⌉ = ((hi - lo + 1 : ℕ) : ℤ) := by
    rw [show (hi : K) + 1 - (lo : K) = ((hi - lo + 1 : ℕ) : K) by push_cast [Nat.cast_sub hlh]; ring,
      Int.ceil_natCast]
  rw [hceil]
  have hn : (0 : K) < ((hi - lo + 1 : ℕ) : K) := by positivity
  have hw : (lo : K) + (((((hi - lo + 1 : ℕ) : ℤ) - 1 : ℤ)) : K) + 1 / 2 - (lo - 1 / 2) =
      ((hi - lo + 1 : ℕ) : K) := by
    push_cast
    ring
  refine ⟨m - lo, by omega, by omega, ?_, ?_⟩
  · unfold colorOf
    rw [hw, div_mul_cancel₀ _ hn.ne', show (m : K) - 1 / 2 - (lo - 1 / 2) = ((m - lo : ℕ) : K) by
      push_cast [Nat.cast_sub h1]; ring, Int.floor_natCast]
  · unfold colorOf
    rw [hw, div_mul_cancel₀ _ hn.ne', show (m : K) - (lo - 1 / 2) = ((m - lo : ℕ) : K) + 1 / 2 by
      push_cast [Nat.cast_sub h1]; ring, Int.floor_eq_iff]
    push_cast
    constructor <;> linarith

/-- **C105**: cells colored by their area. The values of the cells are shifted by 1/2 as if they were whole
numbers, so that a cell does not have the color that the color bar has at its area. -/
theorem C105_voronoi_area_counterexample :
    ∃ r : CellColors ℚ, cellColors [1, 2] = some r ∧ r.values = [1 / 2, 3 / 2] ∧
      colorOf 256 r.lo r.hi (r.values.getD 0 0) = 0 ∧ colorOf 256 r.lo r.hi 1 = 64 := by
  refine ⟨_, rfl, ?_, ?_, ?_⟩ <;> decide +kernel

/-! ### The hypotheses are met -/

/-- A sheared box meets the hypotheses of `C105_box_limits_partial`, and the theorem places its corners. -/
example : Visible (boxLimits (Box.mk' 2 3 4 (1 / 2) (1 / 3) (1 / 4) false : Box ℚ) ⟨1, 0, -1⟩)
    (boxCorner (Box.mk' 2 3 4 (1 / 2) (1 / 3) (1 / 4) false : Box ℚ) ⟨1, 0, -1⟩ 1 0 1) := by
  refine (C105_box_limits_partial _ ⟨?_, ?_, ?_, ?_, ?_⟩ ?_ ?_ ?_ ?_ ?_ ?_ _).2 1 le_rfl 0 (by norm_num) 1 le_rfl
  · decide +kernel
  · decide +kernel
  · decide +kernel
  · intro _
    decide +kernel
  · decide +kernel
  all_goals decide +kernel

/-- Twelve clusters: ten bars, and the largest cluster has one. -/
example : (clusterPlot [7, 7, 7, 3, 3, 0, 1, 2, 4, 5, 6, 8, 9, 10, 11]).length = 10 ∧
    ∃ a ∈ clusterPlot [7, 7, 7, 3, 3, 0, 1, 2, 4, 5, 6, 8, 9, 10, 11], a.1 = 7 := by
  obtain ⟨h1, -, h3, h4⟩ := C105_clusters [7, 7, 7, 3, 3, 0, 1, 2, 4, 5, 6, 8, 9, 10, 11]
  have hl : (clusterPlot [7, 7, 7, 3, 3, 0, 1, 2, 4, 5, 6, 8, 9, 10, 11]).length = 10 := by
    rw [h3]
    decide
  refine ⟨hl, (h4 7 (by simp)).resolve_right fun h => ?_⟩
  obtain ⟨a, ha⟩ := List.exists_mem_of_length_pos (by rw [hl]; norm_num :
    0 < (clusterPlot [7, 7, 7, 3, 3, 0, 1, 2, 4, 5, 6, 8, 9, 10, 11]).length)
  obtain ⟨m, e⟩ := h1 a ha
  have hb := h a ha
  unfold BarBefore at hb
  rw [e] at hb
  have : ∀ v ∈ [7, 7, 7, 3, 3, 0, 1, 2, 4, 5, 6, 8, 9, 10, 11],
      ¬ (List.count 7 [7, 7, 7, 3, 3, 0, 1, 2, 4, 5, 6, 8, 9, 10, 11] <
        List.count v [7, 7, 7, 3, 3, 0, 1, 2, 4, 5, 6, 8, 9, 10, 11] ∨
        List.count 7 [7, 7, 7, 3, 3, 0, 1, 2, 4, 5, 6, 8, 9, 10, 11] =
        List.count v [7, 7, 7, 3, 3, 0, 1, 2, 4, 5, 6, 8, 9, 10, 11] ∧ v < 7) := by
    decide
  exact this _ m hb

/-- A point of voxel `[3, 0]` of a grid of 4 by 2. -/
example : (densityImage 4 2 (fun i j => (i, j)) (Box.mk' 8 6 0 0 0 0 true : Box ℚ)).shown 3 (-1) =
    some (3, 0) :=
  C105_density 4 2 _ _ (by decide +kernel) (by decide +kernel) 3 0 3 (-1)
    (by unfold InsideBin; decide +kernel) (by unfold InsideBin; decide +kernel)

/-- A pattern that is the same upside down. -/
example : (diffractionImage 4 (fun i _ => ((i : ℚ) - 3 / 2) ^ 2) (fun i => (i : ℚ) - 2) 1 (some 0) (some 1)).shown
    (-1) 0 = some (1 / 4) := by
  have h := C105_diffraction_partial (K := ℚ) 4 (fun i _ => ((i : ℚ) - 3 / 2) ^ 2) (fun i => (i : ℚ) - 2)
    ⟨1, one_pos, fun i _ => by norm_num⟩ (by
      intro i hi j _
      have h : ((4 - 1 - i : ℕ) : ℚ) = 3 - i := by
        rw [show 4 - 1 - i = 3 - i from rfl, Nat.cast_sub (by omega)]
        norm_num
      simp only [h]
      ring) 1 (some 0) (some 1) 2 1 (by norm_num) (by norm_num) (by norm_num) (by norm_num)
  norm_num [clip] at h
  norm_num
  exact h

end Freud
