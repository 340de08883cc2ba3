import Verif.Props.FloodInv
/-!
# C62: the search for routes ends
-/

namespace Idc

open FloatOps Relation

variable {F : Type} [FloatOps F]

/-! ### Helpers never loop -/

theorem Res.bind_ne_diverge {α β : Type} {r : Res α} {f : α → Res β} (h1 : r ≠ .diverge) (h2 : ∀ a, r = .ok a → f a ≠ .diverge) :
    (r >>= f) ≠ .diverge := by
  cases r with
  | ok a => exact h2 a rfl
  | err e => intro h; cases h
  | panic p => intro h; cases h
  | diverge => exact absurd rfl h1

theorem index_ne_diverge {α : Type} {l : List α} {i : Nat} : index l i ≠ .diverge := by
  unfold index; split <;> intro h <;> cases h

theorem unwrap_ne_diverge {α : Type} {o : Option α} : unwrap o ≠ .diverge := by
  cases o <;> intro h <;> cases h

theorem ok_ne_diverge {α : Type} {a : α} : Res.ok a ≠ .diverge := by intro h; cases h

theorem mapList_ne_diverge {α β : Type} {f : α → Res β} (hf : ∀ a, f a ≠ .diverge) (l : List α) : Res.mapList f l ≠ .diverge := by
  induction l with
  | nil => exact ok_ne_diverge
  | cons x l ih =>
    simp only [Res.mapList]
    have := hf x
    cases h1 : f x with
    | ok y =>
      cases h2 : Res.mapList f l with
      | diverge => exact absurd h2 ih
      | _ => simp
    | diverge => exact absurd h1 this
    | _ => simp

theorem forEach_ne_diverge {σ α : Type} {f : σ → α → Res σ} (hf : ∀ s a, f s a ≠ .diverge) (l : List α) (s : σ) : forEach f l s ≠ .diverge := by
  induction l generalizing s with
  | nil => exact ok_ne_diverge
  | cons x l ih => exact Res.bind_ne_diverge (hf s x) fun s _ => ih s

theorem insertSide_ne_diverge {m : FullMap F} {acc : List Nat} {side : Option Nat} : insertSide m acc side ≠ .diverge := by
  cases side with
  | none => exact ok_ne_diverge
  | some h => exact Res.bind_ne_diverge (index_ne_diverge) fun _ _ => ok_ne_diverge

theorem insertRef_ne_diverge {m : FullMap F} {acc : List Nat} {r : PolygonRef} : insertRef m acc r ≠ .diverge := by
  cases r with
  | sector h => exact ok_ne_diverge
  | line l => exact Res.bind_ne_diverge (insertSide_ne_diverge) fun _ _ => insertSide_ne_diverge

theorem collectSectors_ne_diverge {m : FullMap F} {refs : List PolygonRef} {p : Nat} {flags : List Bool} {acc : List Nat} :
    collectSectors m refs p flags acc ≠ .diverge := by
  induction flags generalizing p acc with
  | nil => exact ok_ne_diverge
  | cons b flags ih =>
    unfold collectSectors
    split
    · exact ih
    · exact Res.bind_ne_diverge (index_ne_diverge) fun _ _ => Res.bind_ne_diverge (insertRef_ne_diverge) fun _ _ => ih

theorem collectFree_ne_diverge {m : FullMap F} {refs : List PolygonRef} {p : Nat} {flags : List Bool} {acc : List Nat} :
    collectFree m refs p flags acc ≠ .diverge := by
  induction flags generalizing p acc with
  | nil => exact ok_ne_diverge
  | cons b flags ih =>
    unfold collectFree
    split
    · exact ih
    · refine Res.bind_ne_diverge (index_ne_diverge) fun r _ => ?_
      split
      · exact ok_ne_diverge
      · exact Res.bind_ne_diverge (insertRef_ne_diverge) fun _ _ => ih

theorem highestFloor_ne_diverge {m : FullMap F} {l : List Nat} : highestFloor m l ≠ .diverge := by
  refine Res.bind_ne_diverge (mapList_ne_diverge ?_ _) fun _ _ => unwrap_ne_diverge
  intro h
  unfold FullMap.sector index
  split <;> intro hh <;> cases hh

theorem insertTag_ne_diverge {m : FullMap F} {acc : List UInt32} {h : Nat} : insertTag m acc h ≠ .diverge :=
  Res.bind_ne_diverge (index_ne_diverge) fun _ _ => ok_ne_diverge

theorem insertSideTag_ne_diverge {m : FullMap F} {acc : List UInt32} {side : Option Nat} : insertSideTag m acc side ≠ .diverge := by
  cases side with
  | none => exact ok_ne_diverge
  | some h => exact Res.bind_ne_diverge (index_ne_diverge) fun _ _ => insertTag_ne_diverge

theorem collectTags_ne_diverge {m : FullMap F} {refs : List PolygonRef} {p : Nat} {flags : List Bool} {acc : List UInt32} :
    collectTags m refs p flags acc ≠ .diverge := by
  induction flags generalizing p acc with
  | nil => exact ok_ne_diverge
  | cons b flags ih =>
    unfold collectTags
    split
    · exact ih
    · refine Res.bind_ne_diverge (index_ne_diverge) fun r _ => Res.bind_ne_diverge ?_ fun _ _ => ih
      cases r with
      | sector h => exact insertTag_ne_diverge
      | line l => exact Res.bind_ne_diverge (insertSideTag_ne_diverge) fun _ _ => insertSideTag_ne_diverge

theorem bvUnion_ne_diverge {a b : List Bool} : bvUnion a b ≠ .diverge := by
  unfold bvUnion; split <;> intro h <;> cases h

theorem unionHoles_ne_diverge {contours : List (Contour F)} {hs : List Nat} {acc : List Bool} : unionHoles contours hs acc ≠ .diverge := by
  induction hs generalizing acc with
  | nil => exact ok_ne_diverge
  | cons h hs ih =>
    exact Res.bind_ne_diverge (index_ne_diverge) fun _ _ => Res.bind_ne_diverge (bvUnion_ne_diverge) fun _ _ => ih

theorem visitNeighbor_ne_diverge {ctx : RouteCtx F} {ci : Nat} {highest : Int32} {st : FloodState} {nb : Nat × Bool} :
    visitNeighbor ctx ci highest st nb ≠ .diverge := by
  unfold visitNeighbor
  split
  · exact ok_ne_diverge
  · refine Res.bind_ne_diverge (index_ne_diverge) fun _ _ => Res.bind_ne_diverge (index_ne_diverge) fun _ _ =>
      Res.bind_ne_diverge (index_ne_diverge) fun _ _ => Res.bind_ne_diverge (collectFree_ne_diverge) fun ⟨_, _⟩ _ =>
      Res.bind_ne_diverge (highestFloor_ne_diverge) fun _ _ => ?_
    split <;> exact ok_ne_diverge

theorem visitContour_ne_diverge {ctx : RouteCtx F} {d : Int} {st : FloodState} {ci : Nat} : visitContour ctx d st ci ≠ .diverge :=
  Res.bind_ne_diverge (index_ne_diverge) fun _ _ => Res.bind_ne_diverge (index_ne_diverge) fun _ _ =>
  Res.bind_ne_diverge (index_ne_diverge) fun _ _ => Res.bind_ne_diverge (collectSectors_ne_diverge) fun _ _ =>
  Res.bind_ne_diverge (highestFloor_ne_diverge) fun _ _ => Res.bind_ne_diverge (unionHoles_ne_diverge) fun _ _ =>
  forEach_ne_diverge (fun _ _ => visitNeighbor_ne_diverge) _ _

/-! ### The loops end -/

theorem nodup_length_le {l : List Nat} {n : Nat} (h : l.Nodup) (hl : ∀ i ∈ l, i < n) : l.length ≤ n := by
  have : l.Subperm (List.range n) := List.subperm_of_subset h fun i hi => List.mem_range.2 (hl i hi)
  simpa using this.length_le

theorem FloodInv.count {ctx : RouteCtx F} {start : Pt F} {chunks : List (List Nat)} {seed : Nat} {todo : List Nat} {st : FloodState}
    (inv : FloodInv ctx start chunks seed todo st) :
    chunks.flatten.length + st.chunk.length + todo.length + st.next.length ≤ ctx.contours.length := by
  have := nodup_length_le (n := ctx.contours.length) inv.nodup fun i hi => inv.seenLt i ((inv.seen i).2 (by
    simp only [List.mem_append] at hi; exact hi))
  simp only [List.length_append] at this
  omega

theorem FloodInv.ends {ctx : RouteCtx F} (hctx : CtxOk ctx) {start : Pt F} {chunks : List (List Nat)} {seed fuel : Nat} {st : FloodState}
    (inv : FloodInv ctx start chunks seed [] st)
    (hf : ctx.contours.length < fuel + chunks.flatten.length + st.chunk.length) :
    Idc.chunkLoop ctx ((chunks.length : Int) + 1) fuel st ≠ .diverge := by
  induction fuel generalizing st with
  | zero => have := inv.count; omega
  | succ fuel ih =>
    unfold Idc.chunkLoop
    split
    · exact ok_ne_diverge
    · rename_i v vs hn
      refine Res.bind_ne_diverge (forEach_ne_diverge (fun _ _ => visitContour_ne_diverge) _ _) fun st1 h1 => ?_
      rw [← hn] at h1
      obtain ⟨i1, l1⟩ := inv.nextLayer.layer hctx h1
      apply ih i1
      rw [l1, hn]
      simp only [List.length_cons]
      omega

theorem ChunksInv.ends {ctx : RouteCtx F} (hctx : CtxOk ctx) {start : Pt F} {inner fuel : Nat} {chunks : List (List Nat)} {st : FloodState}
    (inv : ChunksInv ctx start chunks st) (hi : ctx.contours.length < inner)
    (hf : (ctx.contours.length - chunks.flatten.length) * (ctx.contours.length + 1) + st.seeds.length < fuel) :
    Idc.floodLoop ctx inner fuel ((chunks.length : Int) + 1) st chunks ≠ .diverge := by
  induction fuel generalizing st chunks with
  | zero => omega
  | succ fuel ih =>
    unfold Idc.floodLoop
    split
    · exact ok_ne_diverge
    · rename_i seed seeds hs
      split
      · rename_i hc
        apply ih (inv.skip hs (by simpa using hc))
        rw [hs] at hf
        simp only [List.length_cons] at hf ⊢
        omega
      · rename_i hc
        have i0 := inv.begin hs (by simpa using hc)
        refine Res.bind_ne_diverge (i0.ends hctx (by omega)) fun st1 h1 => ?_
        obtain ⟨i1, hn⟩ := i0.chunkLoop hctx h1
        have hl : (((chunks ++ [st1.chunk]).length : Nat) : Int) + 1 = (chunks.length : Int) + 1 + 1 := by simp
        have i2 := i1.finish hn inv.connected
        rw [← hl]
        apply ih i2
        have hpos : 0 < st1.chunk.length := by
          have := i1.seedIn
          rw [hn] at this
          simp only [List.not_mem_nil, or_false] at this
          exact List.length_pos_of_mem this
        have hcount := i1.count
        have hseeds : st1.seeds.length ≤ ctx.contours.length := nodup_length_le (sorted_nodup i1.seedsSorted) i1.seedsLt
        have hfl : (chunks ++ [st1.chunk]).flatten.length = chunks.flatten.length + st1.chunk.length := by simp
        rw [hfl]
        have hle : ctx.contours.length - (chunks.flatten.length + st1.chunk.length) + 1 ≤ ctx.contours.length - chunks.flatten.length := by omega
        have := Nat.mul_le_mul_right (ctx.contours.length + 1) hle
        rw [Nat.add_mul] at this
        omega

/-! ### More fuel changes nothing -/

theorem bind_congr_ok {α β : Type} {r r' : Res α} {f f' : α → Res β} (h : (r >>= f) ≠ .diverge) (h1 : r ≠ .diverge → r' = r)
    (h2 : ∀ a, f a ≠ .diverge → f' a = f a) : (r' >>= f') = (r >>= f) := by
  have hr : r ≠ .diverge := by rintro rfl; exact h rfl
  rw [h1 hr]
  cases r with
  | ok a => exact h2 a h
  | _ => rfl

theorem chunkLoop_mono {ctx : RouteCtx F} {d : Int} {fuel fuel' : Nat} (hf : fuel ≤ fuel') {st : FloodState}
    (h : chunkLoop ctx d fuel st ≠ .diverge) : chunkLoop ctx d fuel' st = chunkLoop ctx d fuel st := by
  induction fuel generalizing st fuel' with
  | zero => exact absurd rfl h
  | succ fuel ih =>
    obtain ⟨f', rfl⟩ : ∃ f', fuel' = f' + 1 := ⟨fuel' - 1, by omega⟩
    unfold chunkLoop at h ⊢
    split
    · rfl
    · rename_i v vs hn
      simp only [hn] at h
      exact bind_congr_ok h (fun _ => rfl) fun a ha => ih (by omega) ha

theorem floodLoop_mono {ctx : RouteCtx F} {inner inner' fuel fuel' : Nat} (hi : inner ≤ inner') (hf : fuel ≤ fuel') {d : Int} {st : FloodState}
    {chunks : List (List Nat)} (h : floodLoop ctx inner fuel d st chunks ≠ .diverge) :
    floodLoop ctx inner' fuel' d st chunks = floodLoop ctx inner fuel d st chunks := by
  induction fuel generalizing st fuel' d chunks with
  | zero => exact absurd rfl h
  | succ fuel ih =>
    obtain ⟨f', rfl⟩ : ∃ f', fuel' = f' + 1 := ⟨fuel' - 1, by omega⟩
    unfold floodLoop at h ⊢
    split
    · rfl
    · rename_i seed seeds hs
      simp only [hs] at h
      split
      · rename_i hc
        rw [if_pos hc] at h
        exact ih (by omega) h
      · rename_i hc
        rw [if_neg hc] at h
        exact bind_congr_ok h (fun h => chunkLoop_mono hi h) fun a ha => ih (by omega) ha

theorem floodContours_mono {m : FullMap F} {refs : List PolygonRef} {contours : List (Contour F)} {fuel fuel' : Nat} (hf : fuel ≤ fuel')
    (h : floodContours m refs contours fuel ≠ .diverge) : floodContours m refs contours fuel' = floodContours m refs contours fuel := by
  unfold floodContours at h ⊢
  refine bind_congr_ok h (fun _ => rfl) fun tags ht => ?_
  exact bind_congr_ok ht (fun h => floodLoop_mono hf hf h) fun _ _ => rfl

theorem floodContours_ends (m : FullMap F) (refs : List PolygonRef) (contours : List (Contour F)) (fuel : Nat)
    (hf : (contours.length + 1) ^ 2 ≤ fuel) : floodContours m refs contours fuel ≠ .diverge := by
  unfold floodContours
  refine Res.bind_ne_diverge (mapList_ne_diverge ?_ _) fun tags h1 => ?_
  · intro c
    exact Res.bind_ne_diverge (collectTags_ne_diverge) fun _ _ => ok_ne_diverge
  · have hctx : CtxOk (⟨m, refs, contours, tags⟩ : RouteCtx F) := by
      obtain ⟨e, hh⟩ := mapList_getElem h1
      exact ⟨e, fun i c l hc hl t => contourTags_ok (hh i c l hc hl) t⟩
    refine Res.bind_ne_diverge ?_ fun ⟨_, _⟩ _ => ok_ne_diverge
    have inv := ChunksInv.init (⟨m, refs, contours, tags⟩ : RouteCtx F) ((m.findPlayerStart).getD ⟨ofInt 0, ofInt 0⟩)
    have hs := nodup_length_le (sorted_nodup inv.seedsSorted) inv.seedsLt
    have hn : contours.length * contours.length + 2 * contours.length + 1 ≤ fuel := by
      have : (contours.length + 1) ^ 2 = contours.length * contours.length + 2 * contours.length + 1 := by ring
      omega
    refine ChunksInv.ends hctx inv ?_ ?_
    · dsimp only; omega
    · dsimp only at hs ⊢
      simp only [List.flatten_nil, List.length_nil, Nat.sub_zero, Nat.mul_add, Nat.mul_one]
      omega

/-- **C62, it ends.** On every map and every list of areas the search for routes ends, within the square of the
number of areas plus one rounds. -/
theorem C62_terminates (m : FullMap F) (refs : List PolygonRef) (contours : List (Contour F)) :
    ∃ r, r ≠ .diverge ∧ ∀ fuel ≥ (contours.length + 1) ^ 2, floodContours m refs contours fuel = r :=
  ⟨_, floodContours_ends m refs contours _ (Nat.le_refl _), fun _ h => floodContours_mono h (floodContours_ends m refs contours _ (Nat.le_refl _))⟩

/-! ### When it succeeds -/

/-- The handles of a map and of the areas are valid, and every area lies in some sector. -/
structure RouteReady (m : FullMap F) (refs : List PolygonRef) (contours : List (Contour F)) : Prop where
  flags : ∀ c ∈ contours, ∀ (p : Nat), c.from_polygons[p]? = some true → p < refs.length
  sectors : ∀ h, PolygonRef.sector h ∈ refs → h < m.sectors.length
  sides : ∀ l, PolygonRef.line l ∈ refs → ∀ h, l.front = some h ∨ l.back = some h → h < m.sides.length
  sideSectors : ∀ sd ∈ m.sides, sd.sector < m.sectors.length
  neighbors : ∀ c ∈ contours, c.neighbors.length = contours.length
  holes : ∀ c ∈ contours, ∀ h ∈ c.holes, h < contours.length
  inSector : ∀ c ∈ contours, ∃ (p s : Nat), c.from_polygons[p]? = some true ∧ refs[p]? = some (.sector s) ∧
    ∀ q < p, c.from_polygons[q]? = some true → ∃ s, refs[q]? = some (.sector s)

/-- Neither an error nor a panic. -/
def Res.Fine {α : Type} (r : Res α) : Prop := r = .diverge ∨ ∃ a, r = .ok a

theorem Res.Fine.ok {α : Type} {a : α} : Res.Fine (.ok a) := .inr ⟨a, rfl⟩

theorem Res.Fine.bind {α β : Type} {r : Res α} {f : α → Res β} (h1 : r.Fine) (h2 : ∀ a, r = .ok a → (f a).Fine) : (r >>= f).Fine := by
  rcases h1 with rfl | ⟨a, rfl⟩
  · exact .inl rfl
  · exact h2 a rfl

theorem index_fine {α : Type} {l : List α} {i : Nat} (h : i < l.length) : (index l i).Fine := by
  unfold index
  rw [List.getElem?_eq_getElem h]
  exact .ok

theorem forEach_fine {σ α : Type} {f : σ → α → Res σ} {P : σ → Prop} (l : List α) (hf : ∀ s a, a ∈ l → P s → (f s a).Fine)
    (hp : ∀ s s' a, a ∈ l → P s → f s a = .ok s' → P s') (s : σ) (h : P s) : (forEach f l s).Fine := by
  induction l generalizing s with
  | nil => exact .ok
  | cons x l ih =>
    refine Res.Fine.bind (hf s x List.mem_cons_self h) fun s' hs => ?_
    exact ih (fun s a ha => hf s a (List.mem_cons_of_mem _ ha)) (fun s s' a ha => hp s s' a (List.mem_cons_of_mem _ ha)) _
      (hp s s' x List.mem_cons_self h hs)

theorem mapList_fine {α β : Type} {f : α → Res β} (l : List α) (hf : ∀ a ∈ l, (f a).Fine) : (Res.mapList f l).Fine := by
  induction l with
  | nil => exact .ok
  | cons x l ih =>
    simp only [Res.mapList]
    rcases hf x List.mem_cons_self with h | ⟨y, h⟩ <;> rw [h]
    · exact .inl rfl
    · rcases ih fun a ha => hf a (List.mem_cons_of_mem _ ha) with h | ⟨ys, h⟩ <;> simp only [h]
      · exact .inl rfl
      · exact .ok

/-- A reference to valid things. -/
def PolygonRef.Valid (m : FullMap F) : PolygonRef → Prop
  | .sector h => h < m.sectors.length
  | .line l => ∀ h, l.front = some h ∨ l.back = some h → h < m.sides.length

theorem RouteReady.valid {m : FullMap F} {refs : List PolygonRef} {contours : List (Contour F)} (R : RouteReady m refs contours)
    {p : Nat} {r : PolygonRef} (h : refs[p]? = some r) : r.Valid m := by
  have := List.mem_of_getElem? h
  cases r with
  | sector s => exact R.sectors s this
  | line l => exact R.sides l this

theorem insertSide_fine {m : FullMap F} (hs : ∀ sd ∈ m.sides, sd.sector < m.sectors.length) {acc : List Nat} {side : Option Nat}
    (hv : ∀ h, side = some h → h < m.sides.length) (hacc : ∀ i ∈ acc, i < m.sectors.length) :
    ∃ l, insertSide m acc side = .ok l ∧ (∀ i ∈ l, i < m.sectors.length) ∧ acc ⊆ l := by
  cases side with
  | none => exact ⟨acc, rfl, hacc, fun _ h => h⟩
  | some h =>
    have hlt := hv h rfl
    refine ⟨hashInsert (m.sides[h]'hlt).sector acc, ?_, ?_, ?_⟩
    · simp only [insertSide, FullMap.side, index, List.getElem?_eq_getElem hlt]; rfl
    · intro i hi
      rcases (mem_hashInsert ..).1 hi with rfl | hi
      · exact hs _ (List.getElem_mem _)
      · exact hacc i hi
    · intro i hi; exact (mem_hashInsert ..).2 (.inr hi)

theorem insertRef_fine {m : FullMap F} (hs : ∀ sd ∈ m.sides, sd.sector < m.sectors.length) {acc : List Nat} {r : PolygonRef}
    (hv : r.Valid m) (hacc : ∀ i ∈ acc, i < m.sectors.length) :
    ∃ l, insertRef m acc r = .ok l ∧ (∀ i ∈ l, i < m.sectors.length) ∧ acc ⊆ l ∧ ∀ s, r = .sector s → s ∈ l := by
  cases r with
  | sector h =>
    refine ⟨hashInsert h acc, rfl, ?_, ?_, ?_⟩
    · intro i hi
      rcases (mem_hashInsert ..).1 hi with rfl | hi
      · exact hv
      · exact hacc i hi
    · intro i hi; exact (mem_hashInsert ..).2 (.inr hi)
    · rintro s hh; cases hh; exact (mem_hashInsert ..).2 (.inl rfl)
  | line l =>
    obtain ⟨a, h1, h2, h3⟩ := insertSide_fine hs (side := l.front) (fun h hh => hv h (.inl hh)) hacc
    obtain ⟨b, h4, h5, h6⟩ := insertSide_fine hs (side := l.back) (fun h hh => hv h (.inr hh)) h2
    refine ⟨b, ?_, h5, fun i hi => h6 (h3 hi), fun s hh => by cases hh⟩
    simp only [insertRef, h1]; exact h4

theorem collectSectors_fine {m : FullMap F} (hs : ∀ sd ∈ m.sides, sd.sector < m.sectors.length) {refs : List PolygonRef}
    (hv : ∀ (p : Nat) r, refs[p]? = some r → r.Valid m) {p : Nat} {flags : List Bool} (hfl : ∀ (k : Nat), flags[k]? = some true → p + k < refs.length)
    {acc : List Nat} (hacc : ∀ i ∈ acc, i < m.sectors.length) :
    ∃ l, collectSectors m refs p flags acc = .ok l ∧ (∀ i ∈ l, i < m.sectors.length) ∧ acc ⊆ l ∧
      ∀ (k s : Nat), flags[k]? = some true → refs[p + k]? = some (.sector s) → s ∈ l := by
  induction flags generalizing p acc with
  | nil => exact ⟨acc, rfl, hacc, fun _ h => h, by simp⟩
  | cons b flags ih =>
    have hfl' : ∀ (k : Nat), flags[k]? = some true → p + 1 + k < refs.length := by
      intro k hk; have := hfl (k + 1) hk; omega
    cases b with
    | false =>
      obtain ⟨l, h1, h2, h3, h4⟩ := ih hfl' hacc
      refine ⟨l, ?_, h2, h3, ?_⟩
      · simpa [collectSectors] using h1
      · intro k s hk hr
        cases k with
        | zero => simp at hk
        | succ k => exact h4 k s hk (by rw [← hr]; congr 1; omega)
    | true =>
      have hp : p < refs.length := hfl 0 rfl
      obtain ⟨a, a1, a2, a3, a4⟩ := insertRef_fine hs (hv p _ (List.getElem?_eq_getElem hp)) hacc
      obtain ⟨l, h1, h2, h3, h4⟩ := ih hfl' a2
      refine ⟨l, ?_, h2, fun i hi => h3 (a3 hi), ?_⟩
      · simp only [collectSectors, index, List.getElem?_eq_getElem hp, Bool.not_true, Bool.false_eq_true, if_false]
        show (insertRef m acc refs[p] >>= _) = _
        rw [a1]; exact h1
      · intro k s hk hr
        cases k with
        | zero =>
          rw [Nat.add_zero, List.getElem?_eq_getElem hp] at hr
          exact h3 (a4 s (by simpa using hr))
        | succ k => exact h4 k s hk (by rw [← hr]; congr 1; omega)

theorem collectFree_fine {m : FullMap F} (hs : ∀ sd ∈ m.sides, sd.sector < m.sectors.length) {refs : List PolygonRef}
    (hv : ∀ (p : Nat) r, refs[p]? = some r → r.Valid m) {p : Nat} {flags : List Bool} (hfl : ∀ (k : Nat), flags[k]? = some true → p + k < refs.length)
    {acc : List Nat} (hacc : ∀ i ∈ acc, i < m.sectors.length) :
    ∃ b l, collectFree m refs p flags acc = .ok (b, l) ∧ (∀ i ∈ l, i < m.sectors.length) ∧ acc ⊆ l ∧
      ∀ (k s : Nat), flags[k]? = some true → refs[p + k]? = some (.sector s) →
        (∀ (q : Nat), q < k → flags[q]? = some true → ∃ s, refs[p + q]? = some (.sector s)) → s ∈ l := by
  induction flags generalizing p acc with
  | nil => exact ⟨true, acc, rfl, hacc, fun _ h => h, by simp⟩
  | cons b flags ih =>
    have hfl' : ∀ (k : Nat), flags[k]? = some true → p + 1 + k < refs.length := by
      intro k hk; have := hfl (k + 1) hk; omega
    have shift : ∀ (k : Nat), (∀ (q : Nat), q < k + 1 → (b :: flags)[q]? = some true → ∃ s, refs[p + q]? = some (.sector s)) →
        ∀ (q : Nat), q < k → flags[q]? = some true → ∃ s, refs[p + 1 + q]? = some (.sector s) := by
      intro k h q hq hf
      obtain ⟨s, hs⟩ := h (q + 1) (by omega) hf
      exact ⟨s, by rw [← hs]; congr 1; omega⟩
    cases b with
    | false =>
      obtain ⟨b, l, h1, h2, h3, h4⟩ := ih hfl' hacc
      refine ⟨b, l, ?_, h2, h3, ?_⟩
      · simpa [collectFree] using h1
      · intro k s hk hr hq
        cases k with
        | zero => simp at hk
        | succ k => exact h4 k s hk (by rw [← hr]; congr 1; omega) (shift k hq)
    | true =>
      have hp : p < refs.length := hfl 0 rfl
      by_cases hb : (refs[p]).blocks = true
      · refine ⟨false, acc, ?_, hacc, fun _ h => h, ?_⟩
        · simp only [collectFree, index, List.getElem?_eq_getElem hp, Bool.not_true, Bool.false_eq_true, if_false]
          show (if (refs[p]).blocks = true then _ else _) = _
          rw [if_pos hb]; rfl
        · intro k s hk hr hq
          exfalso
          have : ∃ s, refs[p]? = some (.sector s) := by
            cases k with
            | zero => exact ⟨s, hr⟩
            | succ k => exact hq 0 (by omega) rfl
          obtain ⟨s', hs'⟩ := this
          rw [List.getElem?_eq_getElem hp] at hs'
          simp only [Option.some.injEq] at hs'
          rw [hs'] at hb
          cases hb
      · obtain ⟨a, a1, a2, a3, a4⟩ := insertRef_fine hs (hv p _ (List.getElem?_eq_getElem hp)) hacc
        obtain ⟨b, l, h1, h2, h3, h4⟩ := ih hfl' a2
        refine ⟨b, l, ?_, h2, fun i hi => h3 (a3 hi), ?_⟩
        · simp only [collectFree, index, List.getElem?_eq_getElem hp, Bool.not_true, Bool.false_eq_true, if_false]
          show (if (refs[p]).blocks = true then _ else _) = _
          rw [if_neg hb]
          show (insertRef m acc refs[p] >>= _) = _
          rw [a1]; exact h1
        · intro k s hk hr hq
          cases k with
          | zero =>
            rw [Nat.add_zero, List.getElem?_eq_getElem hp] at hr
            exact h3 (a4 s (by simpa using hr))
          | succ k => exact h4 k s hk (by rw [← hr]; congr 1; omega) (shift k hq)

theorem highestFloor_fine {m : FullMap F} {l : List Nat} (hl : ∀ i ∈ l, i < m.sectors.length) (hne : ∃ i, i ∈ l) : (highestFloor m l).Fine := by
  refine Res.Fine.bind (mapList_fine _ ?_) fun fs hfs => ?_
  · intro i hi
    unfold FullMap.sector index
    rw [List.getElem?_eq_getElem (hl i hi)]
    exact .ok
  · have hlen := (mapList_getElem hfs).1
    cases fs with
    | nil =>
      obtain ⟨i, hi⟩ := hne
      have := List.length_pos_of_mem hi
      simp only [List.length_nil] at hlen
      omega
    | cons x xs =>
      simp only [maxFloor]
      split <;> exact .ok

theorem insertTag_fine {m : FullMap F} {acc : List UInt32} {h : Nat} (hh : h < m.sectors.length) : (insertTag m acc h).Fine :=
  Res.Fine.bind (index_fine hh) fun _ _ => .ok

theorem insertSideTag_fine {m : FullMap F} (hs : ∀ sd ∈ m.sides, sd.sector < m.sectors.length) {acc : List UInt32} {side : Option Nat}
    (hv : ∀ h, side = some h → h < m.sides.length) : (insertSideTag m acc side).Fine := by
  cases side with
  | none => exact .ok
  | some h => exact Res.Fine.bind (index_fine (hv h rfl)) fun sd hsd => insertTag_fine (hs _ (List.mem_of_getElem? (index_eq_ok hsd)))

theorem collectTags_fine {m : FullMap F} (hs : ∀ sd ∈ m.sides, sd.sector < m.sectors.length) {refs : List PolygonRef}
    (hv : ∀ (p : Nat) r, refs[p]? = some r → r.Valid m) {p : Nat} {flags : List Bool} (hfl : ∀ (k : Nat), flags[k]? = some true → p + k < refs.length)
    {acc : List UInt32} : (collectTags m refs p flags acc).Fine := by
  induction flags generalizing p acc with
  | nil => exact .ok
  | cons b flags ih =>
    have hfl' : ∀ (k : Nat), flags[k]? = some true → p + 1 + k < refs.length := by
      intro k hk; have := hfl (k + 1) hk; omega
    unfold collectTags
    split
    · exact ih hfl'
    · rename_i hb
      simp only [Bool.not_eq_true', Bool.not_eq_false] at hb
      subst hb
      refine Res.Fine.bind (index_fine (hfl 0 rfl)) fun r hr => Res.Fine.bind ?_ fun _ _ => ih hfl'
      have hvr := hv p r (index_eq_ok hr)
      cases r with
      | sector h => exact insertTag_fine hvr
      | line l => exact Res.Fine.bind (insertSideTag_fine hs fun h hh => hvr h (.inl hh)) fun _ _ => insertSideTag_fine hs fun h hh => hvr h (.inr hh)

theorem unionHoles_fine {contours : List (Contour F)} {hs : List Nat} {acc : List Bool} {n : Nat} (hh : ∀ h ∈ hs, h < contours.length)
    (hn : ∀ c ∈ contours, c.neighbors.length = n) (ha : acc.length = n) : ∃ l, unionHoles contours hs acc = .ok l ∧ l.length = n := by
  induction hs generalizing acc with
  | nil => exact ⟨acc, rfl, ha⟩
  | cons h hs ih =>
    have hlt := hh h List.mem_cons_self
    have hc := hn _ (List.getElem_mem hlt)
    obtain ⟨l, h1, h2⟩ := ih (acc := List.zipWith (· || ·) acc contours[h].neighbors) (fun k hk => hh k (List.mem_cons_of_mem _ hk))
      (by rw [List.length_zipWith]; omega)
    refine ⟨l, ?_, h2⟩
    simp only [unionHoles, index, List.getElem?_eq_getElem hlt]
    show (bvUnion acc contours[h].neighbors >>= _) = _
    rw [bvUnion, if_pos (by omega)]
    exact h1

theorem visitNeighbor_fine {ctx : RouteCtx F} (R : RouteReady ctx.map ctx.refs ctx.contours) (hctx : CtxOk ctx) {ci : Nat} {highest : Int32}
    {st : FloodState} {nb : Nat × Bool} (hci : ci < ctx.contours.length) (hnb : nb.1 < ctx.contours.length) :
    (visitNeighbor ctx ci highest st nb).Fine := by
  unfold visitNeighbor
  split
  · exact .ok
  · refine Res.Fine.bind (index_fine (by rw [hctx.length]; exact hci)) fun _ _ => Res.Fine.bind (index_fine (by rw [hctx.length]; exact hnb)) fun _ _ =>
      Res.Fine.bind (index_fine hnb) fun c hc => ?_
    have hc := List.mem_of_getElem? (index_eq_ok hc)
    obtain ⟨b, l, h1, h2, _, h4⟩ := collectFree_fine R.sideSectors (fun p r hr => R.valid hr) (p := 0) (flags := c.from_polygons)
      (fun k hk => by have := R.flags c hc k hk; omega) (acc := []) (by simp)
    rw [h1]
    obtain ⟨p, s, k1, k2, k3⟩ := R.inSector c hc
    have hmem : s ∈ l := h4 p s k1 (by simpa using k2) (fun q hq hf => by simpa using k3 q hq hf)
    refine Res.Fine.bind .ok fun _ e => ?_
    cases e
    refine Res.Fine.bind (highestFloor_fine h2 ⟨s, hmem⟩) fun k _ => ?_
    split <;> exact .ok

theorem visitContour_fine {ctx : RouteCtx F} (R : RouteReady ctx.map ctx.refs ctx.contours) (hctx : CtxOk ctx) {d : Int} {st : FloodState} {ci : Nat}
    (hci : ci < ctx.contours.length) (hd : st.distance.length = ctx.contours.length) : (visitContour ctx d st ci).Fine := by
  unfold visitContour
  refine Res.Fine.bind (index_fine (by rw [hctx.length]; exact hci)) fun _ _ => Res.Fine.bind (index_fine (by omega)) fun _ _ =>
    Res.Fine.bind (index_fine hci) fun c hc => ?_
  have hc := List.mem_of_getElem? (index_eq_ok hc)
  obtain ⟨l, h1, h2, _, h4⟩ := collectSectors_fine R.sideSectors (fun p r hr => R.valid hr) (p := 0) (flags := c.from_polygons)
    (fun k hk => by have := R.flags c hc k hk; omega) (acc := []) (by simp)
  rw [h1]
  obtain ⟨p, s, k1, k2, k3⟩ := R.inSector c hc
  refine Res.Fine.bind .ok fun _ e => ?_
  cases e
  refine Res.Fine.bind (highestFloor_fine h2 ⟨s, h4 p s k1 (by simpa using k2)⟩) fun k _ => ?_
  obtain ⟨ns, n1, n2⟩ := unionHoles_fine (R.holes c hc) R.neighbors (R.neighbors c hc)
  rw [n1]
  refine Res.Fine.bind .ok fun _ e => ?_
  cases e
  refine forEach_fine (P := fun _ => True) _ ?_ (fun _ _ _ _ _ _ => trivial) _ trivial
  intro st nb hnb _
  refine visitNeighbor_fine R hctx hci ?_
  have := (List.of_mem_zip (a := nb.1) (b := nb.2) hnb).1
  rw [List.mem_range] at this
  omega

theorem FloodInv.layer_fine {ctx : RouteCtx F} (R : RouteReady ctx.map ctx.refs ctx.contours) (hctx : CtxOk ctx) {start : Pt F}
    {chunks : List (List Nat)} {seed : Nat} {todo : List Nat} {st : FloodState} (inv : FloodInv ctx start chunks seed todo st) :
    (forEach (visitContour ctx ((chunks.length : Int) + 1)) todo st).Fine := by
  induction todo generalizing st with
  | nil => exact .ok
  | cons ci todo ih =>
    refine Res.Fine.bind (visitContour_fine R hctx (inv.seenLt ci ((inv.seen ci).2 (by simp))) inv.distLength) fun st1 h1 => ?_
    exact ih (inv.visit hctx h1).1

theorem FloodInv.chunk_fine {ctx : RouteCtx F} (R : RouteReady ctx.map ctx.refs ctx.contours) (hctx : CtxOk ctx) {start : Pt F}
    {chunks : List (List Nat)} {seed fuel : Nat} {st : FloodState} (inv : FloodInv ctx start chunks seed [] st) :
    (Idc.chunkLoop ctx ((chunks.length : Int) + 1) fuel st).Fine := by
  induction fuel generalizing st with
  | zero => exact .inl rfl
  | succ fuel ih =>
    unfold Idc.chunkLoop
    split
    · exact .ok
    · rename_i v vs hn
      rw [← hn]
      refine Res.Fine.bind (inv.nextLayer.layer_fine R hctx) fun st1 h1 => ?_
      exact ih (inv.nextLayer.layer hctx h1).1

theorem ChunksInv.fine {ctx : RouteCtx F} (R : RouteReady ctx.map ctx.refs ctx.contours) (hctx : CtxOk ctx) {start : Pt F} {inner fuel : Nat}
    {chunks : List (List Nat)} {st : FloodState} (inv : ChunksInv ctx start chunks st) :
    (Idc.floodLoop ctx inner fuel ((chunks.length : Int) + 1) st chunks).Fine := by
  induction fuel generalizing st chunks with
  | zero => exact .inl rfl
  | succ fuel ih =>
    unfold Idc.floodLoop
    split
    · exact .ok
    · rename_i seed seeds hs
      split
      · rename_i hc
        exact ih (inv.skip hs (by simpa using hc))
      · rename_i hc
        have i0 := inv.begin hs (by simpa using hc)
        refine Res.Fine.bind (i0.chunk_fine R hctx) fun st1 h1 => ?_
        obtain ⟨i1, hn⟩ := i0.chunkLoop hctx h1
        have hl : (((chunks ++ [st1.chunk]).length : Nat) : Int) + 1 = (chunks.length : Int) + 1 + 1 := by simp
        rw [← hl]
        exact ih (i1.finish hn inv.connected)

/-- **C62, it succeeds.** If every area lies in a sector and all handles are valid, the search for routes does not panic. -/
theorem C62_succeeds (m : FullMap F) (refs : List PolygonRef) (contours : List (Contour F)) (R : RouteReady m refs contours) :
    ∃ r, ∀ fuel ≥ (contours.length + 1) ^ 2, floodContours m refs contours fuel = .ok r := by
  obtain ⟨r, hr, hall⟩ := C62_terminates m refs contours
  have hfine : (floodContours m refs contours ((contours.length + 1) ^ 2)).Fine := by
    unfold floodContours
    refine Res.Fine.bind (mapList_fine _ ?_) fun tags h1 => ?_
    · intro c hc
      exact Res.Fine.bind (collectTags_fine R.sideSectors (fun p r hr => R.valid hr) (fun k hk => by have := R.flags c hc k hk; omega)) fun _ _ => .ok
    · have hctx : CtxOk (⟨m, refs, contours, tags⟩ : RouteCtx F) := by
        obtain ⟨e, hh⟩ := mapList_getElem h1
        exact ⟨e, fun i c l hc hl t => contourTags_ok (hh i c l hc hl) t⟩
      exact Res.Fine.bind (ChunksInv.fine (ctx := ⟨m, refs, contours, tags⟩) R hctx (ChunksInv.init _ _)) fun ⟨_, _⟩ _ => .ok
  rw [hall _ (Nat.le_refl _)] at hfine
  rcases hfine with h | ⟨a, h⟩
  · exact absurd h hr
  · exact ⟨a, fun fuel hf => by rw [hall fuel hf, h]⟩

end Idc
