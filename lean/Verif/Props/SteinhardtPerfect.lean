import Verif.Props.Harmonics
import Verif.Spec.SteinhardtPerfect
import Verif.Lemmas.Legendre

/-!
# C126: when Steinhardt's `q_l` reaches its largest value
-/

namespace Freud

open Spec

namespace Steinhardt

/-- Positive coefficients with the sum 1, on unit vectors. -/
def Full (L : List (ℝ × Vec3 ℝ)) : Prop := Units L ∧ (∀ d ∈ L, 0 < d.1) ∧ (L.map (·.1)).sum = 1

theorem sum_eq_of_le {A : Type*} (f g : A → ℝ) (L : List A) (h : ∀ a ∈ L, f a ≤ g a)
    (e : (L.map f).sum = (L.map g).sum) : ∀ a ∈ L, f a = g a := by
  induction L with
  | nil => intro a ha; cases ha
  | cons x L ih =>
    simp only [List.map_cons, List.sum_cons] at e
    have h1 := h x List.mem_cons_self
    have h2 : (L.map f).sum ≤ (L.map g).sum := List.sum_le_sum fun a ha => h a (List.mem_cons_of_mem _ ha)
    intro a ha
    rcases List.mem_cons.mp ha with rfl | ha
    · linarith
    · exact ih (fun a ha => h a (List.mem_cons_of_mem _ ha)) (by linarith) a ha

theorem legendre_eq_one {l : ℕ} (hl : 1 ≤ l) (u v : Vec3 ℝ) (hu : Vec3.dot u u = 1) (hv : Vec3.dot v v = 1) :
    legendre l (Vec3.dot u v) = 1 ↔ u = v ∨ Even l ∧ u = -v := by
  have hneg : ∀ w : Vec3 ℝ, Vec3.dot (-w) (-w) = Vec3.dot w w := fun w => by
    show (-w.x) * (-w.x) + (-w.y) * (-w.y) + (-w.z) * (-w.z) = _
    simp only [Vec3.dot]; ring
  have hnegr : ∀ a w : Vec3 ℝ, Vec3.dot a (-w) = -Vec3.dot a w := fun a w => by
    show a.x * (-w.x) + a.y * (-w.y) + a.z * (-w.z) = _
    simp only [Vec3.dot]; ring
  have hnegl : ∀ a w : Vec3 ℝ, Vec3.dot (-a) w = -Vec3.dot a w := fun a w => by
    show (-a.x) * w.x + (-a.y) * w.y + (-a.z) * w.z = _
    simp only [Vec3.dot]; ring
  constructor
  · intro h
    have h1 : |Vec3.dot u v| ≤ 1 := by
      rw [abs_le]
      have e1 : 0 ≤ Vec3.dot (u + v) (u + v) := by
        simp only [Vec3.dot]; nlinarith [mul_self_nonneg (u + v).x, mul_self_nonneg (u + v).y, mul_self_nonneg (u + v).z]
      have e2 : 0 ≤ Vec3.dot (u - v) (u - v) := by
        simp only [Vec3.dot]; nlinarith [mul_self_nonneg (u - v).x, mul_self_nonneg (u - v).y, mul_self_nonneg (u - v).z]
      have e3 : Vec3.dot (u + v) (u + v) = Vec3.dot u u + Vec3.dot v v + 2 * Vec3.dot u v := by
        show (u.x + v.x) * (u.x + v.x) + (u.y + v.y) * (u.y + v.y) + (u.z + v.z) * (u.z + v.z) = _
        simp only [Vec3.dot]; ring
      have e4 : Vec3.dot (u - v) (u - v) = Vec3.dot u u + Vec3.dot v v - 2 * Vec3.dot u v := by
        show (u.x - v.x) * (u.x - v.x) + (u.y - v.y) * (u.y - v.y) + (u.z - v.z) * (u.z - v.z) = _
        simp only [Vec3.dot]; ring
      rw [e3, hu, hv] at e1
      rw [e4, hu, hv] at e2
      constructor <;> linarith
    rcases h1.lt_or_eq with h1 | h1
    · exact absurd (by rw [h, abs_one]) (legendre_abs_one (C101_harmonics l) hl _ h1)
    · rcases (abs_eq zero_le_one).mp h1 with h1 | h1
      · exact Or.inl (eq_of_dot_one hu hv h1)
      · rw [h1, legendre_neg', legendre_one, mul_one] at h
        refine Or.inr ⟨?_, eq_of_dot_one hu ((hneg v).trans hv) (by rw [hnegr, h1, neg_neg])⟩
        by_contra ho
        rw [Nat.not_even_iff_odd] at ho
        rw [ho.neg_one_pow] at h
        norm_num at h
  · rintro (rfl | ⟨he, rfl⟩)
    · rw [hu, legendre_one]
    · rw [hnegl, hv, legendre_neg', legendre_one, he.neg_one_pow, one_mul]

theorem qValue_one {l : ℕ} (hl : 1 ≤ l) (L : List (ℝ × Vec3 ℝ)) (h : Full L) :
    qValue l L = 1 ↔ ∀ d ∈ L, ∀ e ∈ L, d.2 = e.2 ∨ Even l ∧ d.2 = -e.2 := by
  have hrow : ∀ d ∈ L, (L.map fun e => d.1 * e.1 * 1).sum = d.1 := by
    intro d _
    simp only [mul_one]
    rw [List.sum_map_mul_left, h.2.2, mul_one]
  have hle : ∀ d ∈ L, ∀ e ∈ L, d.1 * e.1 * legendre l (Vec3.dot d.2 e.2) ≤ d.1 * e.1 * 1 := fun d hd e he =>
    mul_le_mul_of_nonneg_left (abs_le.mp (legendre_abs_le (C101_harmonics l) _ _ (h.1 d hd) (h.1 e he))).2
      (mul_pos (h.2.1 d hd) (h.2.1 e he)).le
  have htot : (L.map fun d => (L.map fun e => d.1 * e.1 * 1).sum).sum = 1 := by
    rw [List.map_congr_left hrow, h.2.2]
  unfold qValue
  rw [Real.sqrt_eq_one]
  constructor
  · intro hs d hd e he
    rw [← htot] at hs
    have h1 := sum_eq_of_le _ _ L (fun d hd => List.sum_le_sum fun e he => hle d hd e he) hs d hd
    have h2 := sum_eq_of_le _ _ L (fun e he => hle d hd e he) h1 e he
    have h3 := mul_left_cancel₀ (mul_pos (h.2.1 d hd) (h.2.1 e he)).ne' h2
    exact (legendre_eq_one hl _ _ (h.1 d hd) (h.1 e he)).mp h3
  · intro ha
    rw [← htot]
    congr 1
    refine List.map_congr_left fun d hd => ?_
    congr 1
    refine List.map_congr_left fun e he => ?_
    rw [(legendre_eq_one hl _ _ (h.1 d hd) (h.1 e he)).mpr (ha d hd e he)]

/-- The distribution is defined exactly under the condition, and then has these directions. -/
def Desc (o : Option (List (ℝ × Vec3 ℝ))) (ok : Prop) (S : Vec3 ℝ → Prop) : Prop :=
  (o = none ∧ ¬ ok) ∨ (ok ∧ ∃ L, o = some L ∧ Full L ∧ ∀ u, (∃ d ∈ L, d.2 = u) ↔ S u)

theorem Desc.one {o : Option (List (ℝ × Vec3 ℝ))} {ok : Prop} {S : Vec3 ℝ → Prop} (h : Desc o ok S) {l : ℕ}
    (hl : 1 ≤ l) : o.map (qValue l) = some 1 ↔ ok ∧ ∀ u v, S u → S v → u = v ∨ Even l ∧ u = -v := by
  rcases h with ⟨rfl, hn⟩ | ⟨hok, L, rfl, hF, hS⟩
  · simp [hn]
  · rw [Option.map_some, Option.some_inj, qValue_one hl L hF]
    refine ⟨fun h => ⟨hok, fun u v hu hv => ?_⟩, fun h d hd e he => h.2 _ _ ((hS _).mp ⟨d, hd, rfl⟩) ((hS _).mp ⟨e, he, rfl⟩)⟩
    obtain ⟨d, hd, rfl⟩ := (hS u).mpr hu
    obtain ⟨e, he, rfl⟩ := (hS v).mpr hv
    exact h d hd e he

theorem desc_normalized (b : Box ℝ) (points : List (Vec3 ℝ)) (weighted : Bool) (bonds : List (Bond ℝ)) (i : ℕ)
    (hw : weighted = true → ∀ nb ∈ bonds, 0 < nb.weight) :
    Desc (normalized (directions b points weighted bonds i)) (∃ nb ∈ bonds, nb.q = i)
      (fun u => ∃ nb ∈ bonds, nb.q = i ∧ unit (bondVector b points nb) = u) := by
  have hpos : ∀ d ∈ directions b points weighted bonds i, 0 < d.1 := by
    intro d hd
    obtain ⟨nb, hnb, rfl⟩ := List.mem_map.mp hd
    dsimp only
    split_ifs with hwt
    · exact hw hwt nb (List.mem_filter.mp hnb).1
    · exact zero_lt_one
  have hmem : ∀ u, (∃ d ∈ directions b points weighted bonds i, d.2 = u) ↔
      ∃ nb ∈ bonds, nb.q = i ∧ unit (bondVector b points nb) = u := by
    intro u
    constructor
    · rintro ⟨d, hd, rfl⟩
      obtain ⟨nb, hnb, rfl⟩ := List.mem_map.mp hd
      obtain ⟨h1, h2⟩ := List.mem_filter.mp hnb
      exact ⟨nb, h1, of_decide_eq_true h2, rfl⟩
    · rintro ⟨nb, h1, h2, rfl⟩
      exact ⟨_, List.mem_map.mpr ⟨nb, List.mem_filter.mpr ⟨h1, decide_eq_true h2⟩, rfl⟩, rfl⟩
  by_cases h0 : directions b points weighted bonds i = []
  · refine Or.inl ⟨?_, ?_⟩
    · unfold normalized
      rw [h0]; simp
    · rintro ⟨nb, h1, h2⟩
      obtain ⟨d, hd, -⟩ := (hmem _).mpr ⟨nb, h1, h2, rfl⟩
      rw [h0] at hd; cases hd
  · have hs : 0 < ((directions b points weighted bonds i).map (·.1)).sum := by
      refine List.sum_pos _ (fun x hx => ?_) (by simpa using h0)
      obtain ⟨d, hd, rfl⟩ := List.mem_map.mp hx
      exact hpos d hd
    obtain ⟨d, hd⟩ := List.exists_mem_of_ne_nil _ h0
    obtain ⟨nb, h1, h2, -⟩ := (hmem _).mp ⟨d, hd, rfl⟩
    refine Or.inr ⟨⟨nb, h1, h2⟩, _, by unfold normalized; rw [if_neg hs.ne'], ⟨?_, ?_, ?_⟩, fun u => ?_⟩
    · intro d hd
      obtain ⟨e, he, rfl⟩ := List.mem_map.mp hd
      obtain ⟨nb, -, rfl⟩ := List.mem_map.mp he
      exact unit_unit _
    · intro d hd
      obtain ⟨e, he, rfl⟩ := List.mem_map.mp hd
      exact div_pos (hpos e he) hs
    · rw [List.map_map]
      have : ∀ w : ℝ, ((directions b points weighted bonds i).map
          ((fun x : ℝ × Vec3 ℝ => x.1) ∘ fun d => (d.1 / w, d.2))).sum =
          ((directions b points weighted bonds i).map (·.1)).sum / w := by
        intro w
        rw [div_eq_mul_inv, ← List.sum_map_mul_right]
        rfl
      rw [this, div_self hs.ne']
    · refine Iff.trans ?_ (hmem u)
      constructor
      · rintro ⟨d, hd, rfl⟩
        obtain ⟨e, he, rfl⟩ := List.mem_map.mp hd
        exact ⟨e, he, rfl⟩
      · rintro ⟨e, he, rfl⟩
        exact ⟨_, List.mem_map.mpr ⟨e, he, rfl⟩, rfl⟩

theorem desc_mix {js : List ℕ} (hne : js ≠ []) {f : ℕ → Option (List (ℝ × Vec3 ℝ))} {ok : ℕ → Prop}
    {S : ℕ → Vec3 ℝ → Prop} (h : ∀ j ∈ js, Desc (f j) (ok j) (S j)) :
    Desc (mix (js.map f)) (∀ j ∈ js, ok j) (fun u => ∃ j ∈ js, S j u) := by
  by_cases hok : ∀ j ∈ js, ok j
  · have hL : ∀ j ∈ js, ∃ L, f j = some L ∧ Full L ∧ ∀ u, (∃ d ∈ L, d.2 = u) ↔ S j u := by
      intro j hj
      rcases h j hj with ⟨-, hn⟩ | ⟨-, h⟩
      · exact absurd (hok j hj) hn
      · exact h
    have hnone : none ∉ js.map f := by
      intro hm
      obtain ⟨j, hj, e⟩ := List.mem_map.mp hm
      obtain ⟨L, e', -⟩ := hL j hj
      rw [e'] at e; cases e
    have hc : (0 : ℝ) < ((js.map f).length : ℝ) := by
      rw [List.length_map]
      exact Nat.cast_pos.mpr (List.length_pos_of_ne_nil hne)
    refine Or.inr ⟨hok, _, by unfold mix; rw [if_neg hnone], ⟨?_, ?_, ?_⟩, fun u => ?_⟩
    · intro d hd
      obtain ⟨o, ho, hd⟩ := List.mem_flatMap.mp hd
      obtain ⟨j, hj, rfl⟩ := List.mem_map.mp ho
      obtain ⟨L, e, hF, -⟩ := hL j hj
      rw [e] at hd
      obtain ⟨e, he, rfl⟩ := List.mem_map.mp hd
      exact hF.1 e he
    · intro d hd
      obtain ⟨o, ho, hd⟩ := List.mem_flatMap.mp hd
      obtain ⟨j, hj, rfl⟩ := List.mem_map.mp ho
      obtain ⟨L, e, hF, -⟩ := hL j hj
      rw [e] at hd
      obtain ⟨e, he, rfl⟩ := List.mem_map.mp hd
      exact div_pos (hF.2.1 e he) hc
    · have : ∀ (ks : List ℕ) (c : ℝ), (∀ j ∈ ks, j ∈ js) →
          (((ks.map f).flatMap fun L => (L.getD []).map fun d => (d.1 / c, d.2)).map (·.1)).sum = ks.length / c := by
        intro ks c hks
        induction ks with
        | nil => simp
        | cons k ks ih =>
          obtain ⟨L, e, hF, -⟩ := hL k (hks k List.mem_cons_self)
          have := ih fun j hj => hks j (List.mem_cons_of_mem _ hj)
          rw [List.map_cons, List.flatMap_cons, List.map_append, List.sum_append, List.length_cons, e,
            Option.getD_some, List.map_map, this]
          have e : (L.map ((fun x : ℝ × Vec3 ℝ => x.1) ∘ fun d => (d.1 / c, d.2))).sum = (L.map (·.1)).sum / c := by
            rw [div_eq_mul_inv, ← List.sum_map_mul_right]; rfl
          rw [e, hF.2.2]
          push_cast
          ring
      rw [this js _ fun j hj => hj]
      rw [List.length_map] at hc ⊢
      exact div_self hc.ne'
    · constructor
      · rintro ⟨d, hd, rfl⟩
        obtain ⟨o, ho, hd⟩ := List.mem_flatMap.mp hd
        obtain ⟨j, hj, rfl⟩ := List.mem_map.mp ho
        obtain ⟨L, e, hF, hS⟩ := hL j hj
        rw [e] at hd
        obtain ⟨e, he, rfl⟩ := List.mem_map.mp hd
        exact ⟨j, hj, (hS _).mp ⟨e, he, rfl⟩⟩
      · rintro ⟨j, hj, hu⟩
        obtain ⟨L, e, hF, hS⟩ := hL j hj
        obtain ⟨d, hd, rfl⟩ := (hS u).mpr hu
        refine ⟨(d.1 / ((js.map f).length : ℝ), d.2), List.mem_flatMap.mpr ⟨f j, List.mem_map.mpr ⟨j, hj, rfl⟩, ?_⟩, rfl⟩
        rw [e]
        exact List.mem_map.mpr ⟨d, hd, rfl⟩
  · refine Or.inl ⟨?_, hok⟩
    push Not at hok
    obtain ⟨j, hj, hn⟩ := hok
    rcases h j hj with ⟨e, -⟩ | ⟨h, -⟩
    · unfold mix
      rw [if_pos (List.mem_map.mpr ⟨j, hj, e⟩)]
    · exact absurd h hn

end Steinhardt

/-- **C126**: for `l ≥ 1` and positive weights (all are 1 without `weighted`), whatever was computed before and
however the threads run:
the plain `q_l` of a particle is 1 exactly if it has a neighbor and its bonds point in one direction (for even `l`: lie
along one line);
the averaged `q_l` is 1 exactly if the particle and all its neighbors have neighbors and all their bonds together do so;
`order` is 1 exactly if there are particles, each has a neighbor, and all bonds of the system do so. In all other cases
the values are smaller than 1 or not numbers. -/
theorem C126_perfect (sph : Steinhardt.Sph) (p : Steinhardt.Params) (hl1 : 1 ≤ p.l)
    (hf : FsphOK sph p.l (sphericalHarmonic p.l)) (hl : p.wl = true → p.l ≤ 20)
    (history : List Steinhardt.Call) (hh : ∀ c ∈ history, LegalSteinhardt p.l c)
    (c : Steinhardt.Call) (hc : LegalSteinhardt p.l c)
    (hw : p.weighted = true → ∀ nb ∈ c.nlist.bonds, 0 < nb.weight) :
    ∃ r, Steinhardt.resultAfter sph p history c = some r ∧
      (∀ i < c.points.length, (r.qli[i]? = some (some 1) ↔
        (∃ nb ∈ c.nlist.bonds, nb.q = i) ∧
        OneLine p.l c.box c.points (c.nlist.bonds.filter fun nb => nb.q = i))) ∧
      (p.average = true → ∀ i < c.points.length, ((r.getQl p)[i]? = some (some 1) ↔
        ((∃ nb ∈ c.nlist.bonds, nb.q = i) ∧
          ∀ nb ∈ c.nlist.bonds, nb.q = i → ∃ nb' ∈ c.nlist.bonds, nb'.q = nb.p) ∧
        OneLine p.l c.box c.points (c.nlist.bonds.filter fun nb =>
          nb.q = i ∨ ∃ nb' ∈ c.nlist.bonds, nb'.q = i ∧ nb'.p = nb.q))) ∧
      (p.wl = false → (r.order = some 1 ↔
        c.points ≠ [] ∧ (∀ i < c.points.length, ∃ nb ∈ c.nlist.bonds, nb.q = i) ∧
        OneLine p.l c.box c.points (c.nlist.bonds.filter fun nb => nb.q < c.points.length))) := by
  obtain ⟨r, e, h1, h2, h3⟩ := C76_value sph p _ (C101_harmonics p.l) hf hl history hh c hc
  have hn := fun i => Steinhardt.desc_normalized c.box c.points p.weighted c.nlist.bonds i hw
  have hav := fun i => Steinhardt.desc_mix
    (js := (c.nlist.bonds.filter (fun nb => nb.q = i)).map (·.p) ++ [i]) (by simp) (fun j _ => hn j)
  have hmem : ∀ i j, j ∈ (c.nlist.bonds.filter (fun nb => nb.q = i)).map (·.p) ++ [i] ↔
      (∃ nb ∈ c.nlist.bonds, nb.q = i ∧ nb.p = j) ∨ j = i := by
    intro i j
    simp only [List.mem_append, List.mem_map, List.mem_filter, decide_eq_true_eq, List.mem_singleton, and_assoc]
  have hget : ∀ (D : ℕ → Option (List (ℝ × Vec3 ℝ))) i, i < c.points.length →
      (((List.range c.points.length).map fun i => (D i).map (qValue p.l))[i]? = some (some 1) ↔
        (D i).map (qValue p.l) = some 1) := by
    intro D i hi
    rw [List.getElem?_map, List.getElem?_range hi]
    simp
  refine ⟨r, e, fun i hi => ?_, fun ha i hi => ?_, fun hwl => ?_⟩
  · rw [h1, hget _ i hi]
    unfold distribution
    rw [if_neg (by simp), (hn i).one hl1]
    refine and_congr_right fun _ => ?_
    constructor
    · intro h nb hnb nb' hnb'
      obtain ⟨m, q⟩ := List.mem_filter.mp hnb
      obtain ⟨m', q'⟩ := List.mem_filter.mp hnb'
      exact h _ _ ⟨nb, m, of_decide_eq_true q, rfl⟩ ⟨nb', m', of_decide_eq_true q', rfl⟩
    · rintro h _ _ ⟨nb, m, q, rfl⟩ ⟨nb', m', q', rfl⟩
      exact h nb (List.mem_filter.mpr ⟨m, decide_eq_true q⟩) nb' (List.mem_filter.mpr ⟨m', decide_eq_true q'⟩)
  · rw [h2, hget _ i hi, ha]
    unfold distribution
    rw [if_pos rfl, (hav i).one hl1]
    refine and_congr ?_ ?_
    · constructor
      · intro h
        exact ⟨h i ((hmem i i).mpr (Or.inr rfl)), fun nb m q => h _ ((hmem i _).mpr (Or.inl ⟨nb, m, q, rfl⟩))⟩
      · rintro ⟨ha, hb⟩ j hj
        rcases (hmem i j).mp hj with ⟨nb, m, q, rfl⟩ | rfl
        · exact hb nb m q
        · exact ha
    · constructor
      · intro h nb hnb nb' hnb'
        have aux : ∀ nb ∈ c.nlist.bonds.filter (fun nb => nb.q = i ∨ ∃ nb' ∈ c.nlist.bonds, nb'.q = i ∧ nb'.p = nb.q),
            nb ∈ c.nlist.bonds ∧ nb.q ∈ (c.nlist.bonds.filter (fun nb => nb.q = i)).map (·.p) ++ [i] := by
          intro nb hnb
          obtain ⟨m, q⟩ := List.mem_filter.mp hnb
          exact ⟨m, (hmem i _).mpr (of_decide_eq_true q).symm⟩
        obtain ⟨m, q⟩ := aux nb hnb
        obtain ⟨m', q'⟩ := aux nb' hnb'
        exact h _ _ ⟨_, q, nb, m, rfl, rfl⟩ ⟨_, q', nb', m', rfl, rfl⟩
      · rintro h _ _ ⟨j, hj, nb, m, q, rfl⟩ ⟨j', hj', nb', m', q', rfl⟩
        subst q q'
        exact h nb (List.mem_filter.mpr ⟨m, decide_eq_true ((hmem i _).mp hj).symm⟩) nb'
          (List.mem_filter.mpr ⟨m', decide_eq_true ((hmem i _).mp hj').symm⟩)
  · rw [(h3 hwl).2]
    by_cases hp0 : c.points = []
    · rw [hp0]
      simp [mix, qValue]
    have hne : List.range c.points.length ≠ [] := by
      intro h
      exact hp0 (List.length_eq_zero_iff.mp (List.range_eq_nil.mp h))
    have fin : ∀ {f : ℕ → Option (List (ℝ × Vec3 ℝ))} {ok : ℕ → Prop} {S : ℕ → Vec3 ℝ → Prop},
        (∀ j, Steinhardt.Desc (f j) (ok j) (S j)) →
        ((∀ j ∈ List.range c.points.length, ok j) ↔ ∀ i < c.points.length, ∃ nb ∈ c.nlist.bonds, nb.q = i) →
        (∀ u, (∃ j ∈ List.range c.points.length, S j u) ↔
          ∃ nb ∈ c.nlist.bonds, nb.q < c.points.length ∧ unit (bondVector c.box c.points nb) = u) →
        ((mix ((List.range c.points.length).map f)).map (qValue p.l) = some 1 ↔
          c.points ≠ [] ∧ (∀ i < c.points.length, ∃ nb ∈ c.nlist.bonds, nb.q = i) ∧
            OneLine p.l c.box c.points (c.nlist.bonds.filter fun nb => nb.q < c.points.length)) := by
      intro f ok S hD hok hS
      rw [(Steinhardt.desc_mix hne fun j _ => hD j).one hl1, hok]
      simp only [hS]
      constructor
      · rintro ⟨ha, h⟩
        refine ⟨hp0, ha, fun nb m nb' m' => ?_⟩
        obtain ⟨m, q⟩ := List.mem_filter.mp m
        obtain ⟨m', q'⟩ := List.mem_filter.mp m'
        exact h _ _ ⟨nb, m, of_decide_eq_true q, rfl⟩ ⟨nb', m', of_decide_eq_true q', rfl⟩
      · rintro ⟨-, ha, h⟩
        refine ⟨ha, ?_⟩
        rintro _ _ ⟨nb, m, q, rfl⟩ ⟨nb', m', q', rfl⟩
        exact h nb (List.mem_filter.mpr ⟨m, decide_eq_true q⟩) nb' (List.mem_filter.mpr ⟨m', decide_eq_true q'⟩)
    cases hpa : p.average with
    | false =>
      refine fin (f := distribution c.box c.points p.weighted false c.nlist.bonds) (fun j => ?_) ?_ ?_
        (ok := fun j => ∃ nb ∈ c.nlist.bonds, nb.q = j)
        (S := fun j u => ∃ nb ∈ c.nlist.bonds, nb.q = j ∧ unit (bondVector c.box c.points nb) = u)
      · unfold distribution
        rw [if_neg (by simp)]
        exact hn j
      · simp only [List.mem_range]
      · intro u
        constructor
        · rintro ⟨j, hj, nb, m, rfl, h⟩
          exact ⟨nb, m, List.mem_range.mp hj, h⟩
        · rintro ⟨nb, m, q, h⟩
          exact ⟨nb.q, List.mem_range.mpr q, nb, m, rfl, h⟩
    | true =>
      refine fin (f := distribution c.box c.points p.weighted true c.nlist.bonds) (fun j => ?_) ?_ ?_
        (ok := fun i => ∀ j ∈ (c.nlist.bonds.filter (fun nb => nb.q = i)).map (·.p) ++ [i],
          ∃ nb ∈ c.nlist.bonds, nb.q = j)
        (S := fun i u => ∃ j ∈ (c.nlist.bonds.filter (fun nb => nb.q = i)).map (·.p) ++ [i],
          ∃ nb ∈ c.nlist.bonds, nb.q = j ∧ unit (bondVector c.box c.points nb) = u)
      · unfold distribution
        rw [if_pos rfl]
        exact hav j
      · simp only [List.mem_range]
        constructor
        · intro h i hi
          exact h i hi i ((hmem i i).mpr (Or.inr rfl))
        · intro h i hi j hj
          rcases (hmem i j).mp hj with ⟨nb, m, rfl, rfl⟩ | rfl
          · exact h _ (hc.list.points nb m hi)
          · exact h _ hi
      · intro u
        constructor
        · rintro ⟨i, hi, j, hj, nb, m, rfl, h⟩
          refine ⟨nb, m, ?_, h⟩
          rcases (hmem i _).mp hj with ⟨nb', m', rfl, e⟩ | e
          · rw [← e]; exact hc.list.points nb' m' (List.mem_range.mp hi)
          · rw [e]; exact List.mem_range.mp hi
        · rintro ⟨nb, m, q, h⟩
          exact ⟨nb.q, List.mem_range.mpr q, nb.q, (hmem _ _).mpr (Or.inr rfl), nb, m, rfl, h⟩

/-- Two particles see each other in opposite directions: each has `q_l = 1` for every degree, but the averaged values and
that of the system are 1 for even degrees only. Here the degree 1. -/
example : ∃ r, Steinhardt.resultAfter Steinhardt.fsph ⟨1, true, false, false, false⟩ [] Steinhardt.pair = some r ∧
    r.qli[0]? = some (some 1) ∧ r.order ≠ some 1 := by
  obtain ⟨r, e, h1, -, h3⟩ := C126_perfect Steinhardt.fsph ⟨1, true, false, false, false⟩ le_rfl (C101_fsph 1) (by simp)
    [] (by simp) Steinhardt.pair Steinhardt.pair_ok (by simp)
  refine ⟨r, e, (h1 0 (by simp [Steinhardt.pair])).mpr ⟨⟨_, List.mem_cons_self, rfl⟩, ?_⟩, fun h => ?_⟩
  · intro nb hnb nb' hnb'
    simp only [Steinhardt.pair, List.mem_filter, List.mem_cons, List.not_mem_nil, or_false, decide_eq_true_eq] at hnb hnb'
    obtain ⟨rfl | rfl, h⟩ := hnb <;> obtain ⟨rfl | rfl, h'⟩ := hnb' <;> first | exact Or.inl rfl | exact absurd h (by decide) | exact absurd h' (by decide)
  · have := ((h3 rfl).mp h).2.2 ⟨0, 1, 1, 1, ⟨1, 0, 0⟩⟩ (by simp [Steinhardt.pair]) ⟨1, 0, 1, 1, ⟨-1, 0, 0⟩⟩
      (by simp [Steinhardt.pair])
    have e1 : bondVector Steinhardt.pair.box Steinhardt.pair.points ⟨0, 1, 1, 1, ⟨1, 0, 0⟩⟩ = ⟨1, 0, 0⟩ := by
      show (⟨1, 0, 0⟩ - ⟨0, 0, 0⟩ : Vec3 ℝ) = _
      show (⟨1 - 0, 0 - 0, 0 - 0⟩ : Vec3 ℝ) = _
      norm_num
    have e2 : bondVector Steinhardt.pair.box Steinhardt.pair.points ⟨1, 0, 1, 1, ⟨-1, 0, 0⟩⟩ = ⟨-1, 0, 0⟩ := by
      show (⟨0, 0, 0⟩ - ⟨1, 0, 0⟩ : Vec3 ℝ) = _
      show (⟨0 - 1, 0 - 0, 0 - 0⟩ : Vec3 ℝ) = _
      norm_num
    rw [e1, e2] at this
    rcases this with this | ⟨this, -⟩
    · simp [unit, Vec3.dot, Vec3.smul] at this
      norm_num at this
    · exact absurd this (by decide)

end Freud
