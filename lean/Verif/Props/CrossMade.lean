import Verif.Props.CrossMake
import Verif.Props.CrossedExample
/-!
# C84 without the added corners
-/

namespace Idc

variable {lib : Lib} {polys polys' : List (Polygon ℝ × PolygonMode)}

/-! ### The conditions on the polygons and those on the polygons with added corners are the same -/

theorem flatMap_pieces {α β : Type} {l : List α} {l' : List β} {f : α → List (Pt ℝ × Pt ℝ)} {g : β → List (Pt ℝ × Pt ℝ)}
    (h : List.Forall₂ (fun a b => ∃ ds, List.Forall₂ (fun e d => Pieces e.1 e.2 d) (f a) ds ∧ g b = ds.flatten) l l') :
    ∃ ds, List.Forall₂ (fun e d => Pieces e.1 e.2 d) (l.flatMap f) ds ∧ l'.flatMap g = ds.flatten := by
  induction h with
  | nil => exact ⟨[], List.Forall₂.nil, rfl⟩
  | cons h1 _ ih =>
    obtain ⟨ds, a, b⟩ := h1
    obtain ⟨ds', a', b'⟩ := ih
    refine ⟨ds ++ ds', ?_, ?_⟩
    · rw [List.flatMap_cons]; exact List.rel_append a a'
    · rw [List.flatMap_cons, List.flatten_append, b, b']

theorem polygon_pieces {p p' : Polygon ℝ} (h : List.Forall₂ (fun c c' => Subdivided c.points c'.points) p.contours p'.contours) :
    ∃ ds, List.Forall₂ (fun e d => Pieces e.1 e.2 d) p.edges ds ∧ p'.edges = ds.flatten := flatMap_pieces h

theorem forall₂_left {α β : Type} {R : α → β → Prop} {l : List α} {l' : List β} (h : List.Forall₂ R l l') {a : α} (ha : a ∈ l) : ∃ b ∈ l', R a b := by
  induction h with
  | nil => simp at ha
  | cons h1 _ ih =>
    rcases List.mem_cons.1 ha with rfl | ha
    · exact ⟨_, by simp, h1⟩
    · obtain ⟨b, hb, r⟩ := ih ha
      exact ⟨b, by simp [hb], r⟩

theorem Crossed.pieces (h : Crossed polys polys') {e : Pt ℝ × Pt ℝ} (he : e ∈ allEdges polys) : ∃ ds, Pieces e.1 e.2 ds ∧ ∀ d ∈ ds, d ∈ allEdges polys' := by
  have : ∃ ds, List.Forall₂ (fun e d => Pieces e.1 e.2 d) (allEdges polys) ds ∧ allEdges polys' = ds.flatten :=
    flatMap_pieces (h.refined.imp fun p p' hp => polygon_pieces hp.2)
  obtain ⟨ds, a, b⟩ := this
  obtain ⟨l, hl, k⟩ := forall₂_left a he
  exact ⟨l, k, fun d hd => by rw [b]; exact List.mem_flatten.2 ⟨l, hl, hd⟩⟩

theorem forall₂_right {α β : Type} {R : α → β → Prop} {l : List α} {l' : List β} (h : List.Forall₂ R l l') {b : β} (hb : b ∈ l') : ∃ a ∈ l, R a b := by
  obtain ⟨a, ha, r⟩ := forall₂_left h.flip hb
  exact ⟨a, ha, r⟩

theorem Crossed.whole_edge (h : Crossed polys polys') {d : Pt ℝ × Pt ℝ} (hd : d ∈ allEdges polys') : ∃ e ∈ allEdges polys, OnSegment e d.1 ∧ OnSegment e d.2 := by
  have : ∃ ds, List.Forall₂ (fun e d => Pieces e.1 e.2 d) (allEdges polys) ds ∧ allEdges polys' = ds.flatten :=
    flatMap_pieces (h.refined.imp fun p p' hp => polygon_pieces hp.2)
  obtain ⟨ds, a, b⟩ := this
  rw [b] at hd
  obtain ⟨l, hl, hd⟩ := List.mem_flatten.1 hd
  obtain ⟨e, he, k⟩ := forall₂_right a hl
  exact ⟨e, he, k.on d hd⟩

/-- Of different pieces, common points are ends. -/
theorem Crossed.junction_end (h : Crossed polys polys') {e f d : Pt ℝ × Pt ℝ} {q : Pt ℝ} (hf : f ∈ allEdges polys) (hfe : ¬ ParallelEdges e f) (hfq : OnSegment f q)
    (hd : Drawn polys' d) (hde : ParallelEdges e d) (hq : OnSegment d q) : EndOf d q := by
  obtain ⟨l, hl, hl'⟩ := h.pieces hf
  have hfp : f.1 ≠ f.2 := by intro k; apply hfe; unfold ParallelEdges; rw [k]; ring
  obtain ⟨d', hd', o⟩ := hl.cover q hfq
  have o' := hl.on d' hd'
  have hp := hl.proper hfp d' hd'
  have par := part_parallel o'.1 o'.2 hp
  have hne : ¬ ParallelEdges d d' := by
    intro k
    apply hfe
    exact parallel_trans hd.1 (parallel_symm hde) (parallel_trans hp (parallel_symm k) (parallel_symm par) |> fun t => t)
  have s1 : d' ≠ d := by rintro rfl; apply hne; unfold ParallelEdges; ring
  have s2 : d' ≠ d.swap := by rintro rfl; apply hne; unfold ParallelEdges; simp only [Prod.fst_swap, Prod.snd_swap]; ring
  exact (h.planar.apart d d' hd ⟨hp, Or.inl (hl' d' hd')⟩ s1 s2 q ⟨hq, o⟩).1

/-- The corners are corners of the cut polygons, too. -/
theorem Crossed.corner (h : Crossed polys polys') {q : Pt ℝ} (hv : q ∈ allCorners polys) : q ∈ allCorners polys' := by
  obtain ⟨e, he, rfl⟩ := corner_edge hv
  obtain ⟨l, hl, hl'⟩ := h.pieces he
  obtain ⟨d, hd, k⟩ := hl.first
  rw [← k]
  exact (mem_corners (hl' d hd)).1

/-- On an edge, a vertex is where a piece starts. -/
theorem Crossed.vertex_start (h : Crossed polys polys') {e : Pt ℝ × Pt ℝ} (he : Drawn polys e) {q : Pt ℝ} (hv : Vertex polys q) (hq : OnSegment e q) :
    ∃ d, Drawn polys' d ∧ d.1 = q ∧ OnSegment e d.1 ∧ OnSegment e d.2 := by
  wlog hm : e ∈ allEdges polys generalizing e
  · obtain ⟨d, a, b, c, c'⟩ := this (e := e.swap) ⟨he.1.symm, by rw [Prod.swap_swap]; exact he.2.symm⟩ (on_swap hq) (he.2.resolve_left hm)
    have c := on_swap c
    have c' := on_swap c'
    rw [Prod.swap_swap] at c c'
    exact ⟨d, a, b, c, c'⟩
  obtain ⟨l, hl, hl'⟩ := h.pieces hm
  have fin : ∀ d ∈ l, EndOf d q → ∃ d, Drawn polys' d ∧ d.1 = q ∧ OnSegment e d.1 ∧ OnSegment e d.2 := by
    rintro d hd (rfl | rfl)
    · exact ⟨d, ⟨hl.proper he.1 d hd, Or.inl (hl' d hd)⟩, rfl, hl.on d hd⟩
    · exact ⟨d.swap, ⟨(hl.proper he.1 d hd).symm, Or.inr (by rw [Prod.swap_swap]; exact hl' d hd)⟩, rfl, (hl.on d hd).symm⟩
  have inner : ∀ f ∈ allEdges polys, OnSegment f q → ¬ ParallelEdges e f → ∃ d, Drawn polys' d ∧ d.1 = q ∧ OnSegment e d.1 ∧ OnSegment e d.2 := by
    intro f hf o hp
    obtain ⟨d, hd, od⟩ := hl.cover q hq
    have hdr : Drawn polys' d := ⟨hl.proper he.1 d hd, Or.inl (hl' d hd)⟩
    have on := hl.on d hd
    exact fin d hd (h.junction_end hf hp o hdr (part_parallel on.1 on.2 hdr.1) od)
  rcases hv with hv | ⟨hn, f, hf, f', hf', o, o', hp⟩
  · by_cases hend : EndOf e q
    · rcases hend with rfl | rfl
      · obtain ⟨d, hd, k⟩ := hl.first
        exact fin d hd (Or.inl k.symm)
      · obtain ⟨d, hd, k⟩ := hl.last
        exact fin d hd (Or.inr k.symm)
    · have ending : ∀ {f : Pt ℝ × Pt ℝ} {a : Pt ℝ}, f ∈ allEdges polys → EndOf f q → EndOf f a → a ≠ q → ∃ d, Drawn polys' d ∧ d.1 = q ∧ OnSegment e d.1 ∧ OnSegment e d.2 := by
        intro f a hf fq fa haq
        have hfp : f.1 ≠ f.2 := by
          intro k
          unfold EndOf at fq fa
          rw [k, or_self] at fq fa
          exact haq (fa.trans fq.symm)
        obtain ⟨lf, hlf, hlf'⟩ := h.pieces hf
        have : ∃ d₀ ∈ lf, EndOf d₀ q := by
          rcases fq with rfl | rfl
          · obtain ⟨d, hd, k⟩ := hlf.first
            exact ⟨d, hd, Or.inl k.symm⟩
          · obtain ⟨d, hd, k⟩ := hlf.last
            exact ⟨d, hd, Or.inr k.symm⟩
        obtain ⟨d₀, hd₀, e₀⟩ := this
        obtain ⟨d, hd, od⟩ := hl.cover q hq
        refine fin d hd ?_
        by_cases s1 : d₀ = d
        · rw [← s1]; exact e₀
        by_cases s2 : d₀ = d.swap
        · rw [s2] at e₀; exact e₀.symm
        exact (h.planar.apart d d₀ ⟨hl.proper he.1 d hd, Or.inl (hl' d hd)⟩ ⟨hlf.proper hfp d₀ hd₀, Or.inl (hlf' d₀ hd₀)⟩ s1 s2 q ⟨od, by
          rcases e₀ with k | k <;> rw [k]; exacts [end_of_on.1, end_of_on.2]⟩).1
      rcases (h.met e hm q (h.corner hv) hq hend).2 with ⟨f, hf, o, hp | hp, a, ha, hlt⟩ | ⟨_, _, _, f, hf, fq, a, fa, hlt, _⟩
      · exact ending hf hp ha fun k => by rw [k] at hlt; exact leftOf_asymm hlt hlt
      · exact inner f hf o hp
      · exact ending hf fq fa fun k => by rw [k] at hlt; exact leftOf_asymm hlt hlt
  · by_cases hpf : ParallelEdges e f
    · exact inner f' hf' o' fun k => hp (parallel_trans he.1 hpf k)
    · exact inner f hf o hpf

theorem drawn_corner {d : Pt ℝ × Pt ℝ} (h : Drawn polys d) : d.1 ∈ allCorners polys := by
  rcases h.2 with h | h
  · exact (mem_corners h).1
  · exact (mem_corners h).2

theorem Crossed.vertex (h : Crossed polys polys') {q : Pt ℝ} (hv : Vertex polys q) : q ∈ allCorners polys' := by
  rcases hv with hv | hv
  · exact h.corner hv
  · have hv' := hv
    obtain ⟨hn, f, hf, f', hf', o, o', hp⟩ := hv
    have hfp : f.1 ≠ f.2 := by intro k; apply hp; unfold ParallelEdges; rw [k]; ring
    obtain ⟨d, a, rfl, _⟩ := h.vertex_start ⟨hfp, Or.inl hf⟩ (Or.inr hv') o
    exact drawn_corner a

theorem exists_off {a b : Pt ℝ} (h : a ≠ b) (l : List (Pt ℝ)) : ∃ m, OnSegment (a, b) m ∧ m ∉ l := by
  by_contra hc
  push Not at hc
  have hinf : (Set.Icc (0 : ℝ) 1).Infinite := Set.Icc_infinite one_pos
  refine Set.infinite_of_injOn_mapsTo (f := along (a, b)) (t := {m | m ∈ l}) (fun _ _ _ _ e => along_inj h e) (fun t ht => ?_) hinf l.finite_toSet
  exact hc _ (on_along.2 ⟨t, ht.1, ht.2, rfl⟩)

theorem Crossed.drawn (h : Crossed polys polys') {d : Pt ℝ × Pt ℝ} : Drawn polys' d ↔ EdgePiece polys d := by
  have hv : ∀ {q}, q ∈ allCorners polys' → Vertex polys q := by
    intro q hq
    by_cases hn : q ∈ allCorners polys
    · exact Or.inl hn
    · obtain ⟨d, hd, rfl⟩ := corner_edge hq
      obtain ⟨e, he, o, _⟩ := h.whole_edge hd
      have hne : ¬ EndOf e d.1 := by
        rintro (k | k)
        · exact hn (by rw [k]; exact (mem_corners he).1)
        · exact hn (by rw [k]; exact (mem_corners he).2)
      obtain ⟨_, ⟨f, hf, o', hp, _⟩ | ⟨_, _, _, f, hf, hp, _⟩⟩ := h.met e he _ hq o hne
      · have hf' : ¬ EndOf f d.1 := by
          rintro (k | k)
          · exact hn (by rw [k]; exact (mem_corners hf).1)
          · exact hn (by rw [k]; exact (mem_corners hf).2)
        exact Or.inr ⟨hn, e, he, f, hf, o, o', hp.resolve_left hf'⟩
      · exfalso
        rcases hp with k | k
        · exact hn (by rw [k]; exact (mem_corners hf).1)
        · exact hn (by rw [k]; exact (mem_corners hf).2)
  have edge : ∀ {u}, u ∈ allEdges polys' → u.1 ≠ u.2 → EdgePiece polys u := by
    intro u hu hne
    obtain ⟨e, he, o⟩ := h.whole_edge hu
    refine ⟨hne, ⟨hv (mem_corners hu).1, hv (mem_corners hu).2⟩, ⟨e, he, o⟩, ?_⟩
    intro q hq hon
    obtain ⟨u', h1, h2, _, _⟩ := h.vertex_start ⟨part_proper o.1 o.2 hne, Or.inl he⟩ hq (on_part o.1 o.2 hon)
    by_cases s1 : u' = u
    · exact Or.inl (by rw [← h2, s1])
    by_cases s2 : u' = u.swap
    · exact Or.inr (by rw [← h2, s2]; rfl)
    exact (h.planar.apart u u' ⟨hne, Or.inl hu⟩ h1 s1 s2 q ⟨hon, by rw [← h2]; exact end_of_on.1⟩).1
  constructor
  · rintro ⟨hne, hd | hd⟩
    · exact edge hd hne
    · have := (edge hd hne.symm).swap
      rwa [Prod.swap_swap] at this
  · intro hd
    refine ⟨hd.ne, ?_⟩
    obtain ⟨e, he, e1, e2⟩ := hd.on
    obtain ⟨l, hl, hl'⟩ := h.pieces he
    obtain ⟨m1, m2⟩ := middle_on (end_of_on (d := d)).1 end_of_on.2 hd.ne
    have mv : ¬ Vertex polys ⟨(d.1.x + d.2.x) / 2, (d.1.y + d.2.y) / 2⟩ := fun k => m2 (hd.clear _ k m1)
    obtain ⟨d', hd', o⟩ := hl.cover _ (on_part e1 e2 m1)
    rcases hd.same (edge (hl' d' hd') (hl.proper (part_proper e1 e2 hd.ne) d' hd')) m1 o mv with rfl | rfl
    · exact Or.inl (hl' _ hd')
    · exact Or.inr (hl' _ hd')

/-- Polygons of which the crossings can be made corners. -/
theorem Crossed.intrinsic (h : Crossed polys polys') : Crossing polys := by
  refine ⟨h.planar.separate.mono (fun q hq => h.vertex hq) fun e he => h.drawn.2 he, ?_, fun e he q hq => h.met e he q (h.vertex hq), ?_, ?_⟩
  · intro p hp
    obtain ⟨p', hp', k⟩ := forall₂_left h.refined hp
    obtain ⟨ds, a, b⟩ := polygon_pieces k.2
    have ho := h.planar.once p' hp'
    rw [b, List.pairwise_flatten] at ho
    replace ho := ho.2
    have hmem : ∀ l ∈ ds, ∀ d ∈ l, d ∈ allEdges polys' := fun l hl d hd => List.mem_flatMap.2 ⟨p', hp', by rw [b]; exact List.mem_flatten.2 ⟨l, hl, hd⟩⟩
    clear b k
    generalize p.1.edges = es at a
    induction a with
    | nil => exact List.Pairwise.nil
    | @cons e l es ds hl hr ih =>
      have ho' := List.pairwise_cons.1 ho
      refine List.pairwise_cons.2 ⟨?_, ih ho'.2 fun l₁ k₁ d hd => hmem l₁ (List.mem_cons_of_mem _ k₁) d hd⟩
      intro e' he' u v h1 h2 h1' h2'
      by_contra hne
      obtain ⟨l', hl'm, hl'⟩ := forall₂_left hr he'
      obtain ⟨m, hm, hmc⟩ := exists_off hne (allCorners polys')
      obtain ⟨d, hd, o⟩ := hl.cover m (on_part (d := (u, v)) h1 h2 hm)
      obtain ⟨d', hd', o'⟩ := hl'.cover m (on_part (d := (u, v)) h1' h2' hm)
      have hdp := hl.proper (part_proper (d := (u, v)) h1 h2 hne) d hd
      have hdp' := hl'.proper (part_proper (d := (u, v)) h1' h2' hne) d' hd'
      have hda := hmem l (by simp) d hd
      have := ho'.1 l' hl'm d hd d' hd' hdp
      rcases (h.planar.apart d d' ⟨hdp, Or.inl hda⟩ ⟨hdp', Or.inl (hmem l' (by simp [hl'm]) d' hd')⟩ this.1 this.2 _ ⟨o, o'⟩).1 with k | k
      · rw [k] at hmc; exact hmc (mem_corners hda).1
      · rw [k] at hmc; exact hmc (mem_corners hda).2
  · intro e e' he he'
    obtain ⟨d, hd, _, o1, o2⟩ := h.vertex_start he (Or.inl (drawn_corner he)) end_of_on.1
    obtain ⟨d', hd', _, o1', o2'⟩ := h.vertex_start he' (Or.inl (drawn_corner he')) end_of_on.1
    obtain ⟨k, hk, hx, hy⟩ := part_dir o1 o2 hd.1
    obtain ⟨k', hk', hx', hy'⟩ := part_dir o1' o2' hd'.1
    obtain ⟨a, b⟩ := nearly_scale hk hk' hx hy hx' hy'
    rw [← a, ← b]
    exact h.planar.angles d d' hd hd'
  · intro e e' he he' hp
    rw [or_iff_not_imp_left]
    intro hn q q' hv hq hv' hq'
    obtain ⟨d, hd, rfl, o1, o2⟩ := h.vertex_start he hv hq
    obtain ⟨d', hd', rfl, o1', o2'⟩ := h.vertex_start he' hv' hq'
    obtain ⟨k, hk, hx, hy⟩ := part_dir o1 o2 hd.1
    obtain ⟨k', hk', hx', hy'⟩ := part_dir o1' o2' hd'.1
    have hpd := (nearly_scale hk hk' hx hy hx' hy').1.2 hp
    rcases h.planar.distances d d' hd hd' hpd with c | c
    · exfalso
      apply hn
      obtain ⟨s, _, _, hs⟩ := on_along.1 o1
      obtain ⟨s', _, _, hs'⟩ := on_along.1 o1'
      unfold OnLine at c ⊢
      unfold ParallelEdges at hp
      rw [hx, hy, hs, hs'] at c
      simp only [along] at c
      apply mul_left_cancel₀ hk
      linear_combination c + k * s' * hp
    · exact (clearly_scale hk hx hy).1 c

/-- **C84.** The crossings can be made corners exactly if the polygons are as in `Crossing`; the edges then are the pieces of edges between
neighboring corners and crossings. -/
theorem C84_cut : (Crossing polys ↔ ∃ polys', Crossed polys polys') ∧
    ∀ {polys'}, Crossed polys polys' → ∀ d, Drawn polys' d ↔ EdgePiece polys d := by
  exact ⟨⟨fun h => ⟨_, cutAll_crossed h⟩, fun ⟨_, h⟩ => h.intrinsic⟩, fun h d => h.drawn⟩

theorem Crossed.nextBelow (h : Crossed polys polys') {e d : Pt ℝ × Pt ℝ} : NextBelow polys' e d ↔ NextPieceBelow polys e d := by
  have key : (∀ e' ∈ allEdges polys', CrossesBelow e.1 e' → ∀ x, Over d x → Over e' x → heightAt e' x ≤ heightAt d x) ↔
      ∀ u, EdgePiece polys u → CrossesBelow e.1 u → ∀ x, Over d x → Over u x → heightAt u x ≤ heightAt d x := by
    constructor
    · intro k u hu hc x h1 h2
      rcases (h.drawn.2 hu).2 with m | m
      · exact k u m hc x h1 h2
      · have := k u.swap m ((crosses_swap _).2 hc) x h1 ((over_swap u x).2 h2)
        rwa [show heightAt u.swap x = heightAt u x from heightAt_swap (crosses_x hc) x] at this
    · intro k u hu hc x h1 h2
      exact k u (h.drawn.1 ⟨fun e => crosses_x hc (by rw [e]), Or.inl hu⟩) hc x h1 h2
  constructor
  · rintro ⟨h1, h2, h3⟩
    refine ⟨h.drawn.1 h1, h2, h3.imp ?_ ?_⟩
    · rintro ⟨a, b, c⟩
      exact ⟨a, b, fun u hu => c u (h.drawn.2 hu)⟩
    · rintro ⟨a, b, c⟩
      exact ⟨fun u hu => a u (h.drawn.2 hu), b, key.1 c⟩
  · rintro ⟨h1, h2, h3⟩
    refine ⟨h.drawn.2 h1, h2, h3.imp ?_ ?_⟩
    · rintro ⟨a, b, c⟩
      exact ⟨a, b, fun u hu => c u (h.drawn.1 hu)⟩
    · rintro ⟨a, b, c⟩
      exact ⟨fun u hu => a u (h.drawn.1 hu), b, key.2 c⟩

/-! ### The theorems -/

/-- **C84.** What `compute` makes of polygons that cross, in terms of the polygons alone.  It returns, without a panic.  Each outline is labelled with the
polygons its area belongs to; the outlines consist of exactly those pieces of edges, between neighboring corners and crossings, that have an area of the
result on their left, each once; at each corner or crossing an outline goes on along the first piece clockwise from where it came from, and it starts at its
leftmost corner; two outlines are neighbors exactly if they go along one piece in opposite directions; external outlines are the counterclockwise ones, and
the others are recorded as holes of the outline that goes along the next piece below. -/
theorem C84_crossing (hl : lib.Lawful) (hs : lib.SearchHonest) (hC : Crossing polys) (hm : ∀ p ∈ polys, p.2 ≠ .removeEdges) (op : BooleanOpType) :
    ∃ r, (∃ N, ∀ fuel, N < fuel → compute lib fuel polys op = .ok r) ∧
      (∀ c ∈ r.contours, FlagsOk polys c.from_polygons ∧ ∀ d ∈ closedEdges c.points, EdgePiece polys d ∧ AreaLeft polys d c.from_polygons) ∧
      (∀ d flags, EdgePiece polys d → AreaLeft polys d flags → (d ∈ outlineEdges r ↔ FlagsOk polys flags)) ∧
      (outlineEdges r).Nodup ∧
      (∀ c ∈ r.contours, (∃ v rest, c.points = v :: rest ∧ ∀ q ∈ rest, LeftOf v q) ∧
        (∀ (j : ℕ) d d', (closedEdges c.points)[j]? = some d → (closedEdges c.points)[j + 1]? = some d' →
          d'.1 = d.2 ∧ d' ≠ d.swap ∧ ∀ u, EdgePiece polys u → u.1 = d.2 → u ≠ d' → u ≠ d.swap → TurnsThrough u d' d.swap) ∧
        (c.external = true ↔ 0 < signedArea2 c.points) ∧ (c.external = false ↔ signedArea2 c.points < 0)) ∧
      (∀ (i j : ℕ) c c', r.contours[i]? = some c → r.contours[j]? = some c' →
        c.neighbors.length = r.contours.length ∧ (c.neighbors[j]? = some true ↔ ∃ d ∈ closedEdges c.points, d.swap ∈ closedEdges c'.points) ∧
        (j ∈ c.holes ↔ signedArea2 c'.points < 0 ∧ ∃ v b d, c'.points.head? = some v ∧ c'.points.getLast? = some b ∧ d ∈ closedEdges c.points ∧
          NextPieceBelow polys (v, b) d) ∧
        (i < j → ∃ d d', (closedEdges c.points).head? = some d ∧ (closedEdges c'.points).head? = some d' ∧ (LeftOf d.1 d'.1 ∨ d.1 = d'.1 ∧ 0 < cross2 d d'))) ∧
      ((∀ p ∈ polys, p.2 = .normal) → ∀ d, EdgePiece polys d → d ∈ outlineEdges r ∨ d.swap ∈ outlineEdges r) := by
  obtain ⟨polys', h⟩ := C84_cut.1.1 hC
  obtain ⟨r, h1, h2, h3, h4⟩ := C84_outlines hl hs h hm op
  have hf : 5 * (allCorners polys').length < 5 * (allCorners polys').length + 1 := by omega
  have hr := h1 _ hf
  refine ⟨r, ⟨_, h1⟩, ?_, ?_, h4, ?_, ?_, ?_⟩
  · intro c hc
    refine ⟨(h2 c hc).1, fun d hd => ?_⟩
    have := (h2 c hc).2 d hd
    exact ⟨h.drawn.1 this.1, this.2⟩
  · intro d flags hd
    exact h3 d flags (h.drawn.2 hd)
  · intro c hc
    refine ⟨C84_start hl hs h hm hf hr hc, ?_, C84_external hl hs h hm hf hr hc⟩
    intro j d d' hd hd'
    obtain ⟨a, b, c⟩ := C84_turns hl hs h hm hf hr hc hd hd'
    exact ⟨a, b, fun u hu => c u (h.drawn.2 hu)⟩
  · intro i j c c' hc hc'
    obtain ⟨a, b⟩ := C84_neighbors hl hs h hm hf hr hc hc'
    refine ⟨a, b, ?_, fun hij => C84_order hl hs h hm hf hr hij hc hc'⟩
    rw [C84_holes hl hs h hm hf hr hc hc']
    simp only [h.nextBelow]
  · intro hn d hd
    rcases (h.drawn.2 hd).2 with k | k
    · exact C84_edges_kept hl hs h hn hf hr k hd.ne
    · have := C84_edges_kept hl hs h hn hf hr k hd.ne.symm
      rw [Prod.swap_swap] at this
      exact this.symm

/-- C69 as far as it is true of crossing outlines: no panic, in exact arithmetic. -/
theorem C69_crossing_no_panic_partial (hl : lib.Lawful) (hs : lib.SearchHonest) (hC : Crossing polys) (hm : ∀ p ∈ polys, p.2 ≠ .removeEdges) (op : BooleanOpType) :
    ∃ r N, ∀ fuel, N < fuel → compute lib fuel polys op = .ok r := by
  obtain ⟨r, ⟨N, h⟩, _⟩ := C84_crossing hl hs hC hm op
  exact ⟨r, N, h⟩

theorem C84_crossing_hypotheses_met : Crossing (crossSample.map fun p => (zPolygon p.1, p.2)) ∧
    (∀ p ∈ crossSample.map fun p => (zPolygon p.1, p.2), p.2 ≠ .removeEdges) ∧ listLib.Lawful ∧ listLib.SearchHonest ∧
    ∃ q, Junction (crossSample.map fun p => (zPolygon p.1, p.2)) q := by
  have h := C84_hypotheses_met.1
  refine ⟨h.intrinsic, C84_hypotheses_met.2.1, C84_hypotheses_met.2.2.1, C84_hypotheses_met.2.2.2, ZPt.toPt (100, 20), ?_⟩
  refine ((C84_cut.2 h (ZPt.toPt (100, 20), ZPt.toPt (130, 20))).1 ⟨?_, Or.inl ?_⟩).ends.1.resolve_left ?_
  · exact fun k => absurd (toPt_inj k) (by decide)
  · rw [allEdges_z]
    exact List.mem_map.2 ⟨((100, 20), (130, 20)), by decide +kernel, rfl⟩
  · rw [allCorners_z]
    intro k
    obtain ⟨q, hq, e⟩ := List.mem_map.1 k
    rw [toPt_inj e] at hq
    revert hq
    decide +kernel

end Idc
