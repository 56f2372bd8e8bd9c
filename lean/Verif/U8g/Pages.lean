import Verif.U8g.Rounded
import Verif.U8g.Xbm
import Verif.U8g.Spec

/-!
# The picture loop

Helper lemmas: a drawing procedure leaves the picture of the current page in the buffer,
and the loop goes through all pages.
-/

namespace Verif.U8g

theorem span_iff (s w p : Byte) : Span s w p ↔ p - s < w := by
  constructor
  · rintro ⟨i, hi, rfl⟩
    rw [BitVec.add_comm, BitVec.add_sub_cancel, BitVec.lt_def, BitVec.toNat_ofNat]
    have := w.isLt
    omega
  · intro h
    refine ⟨(p - s).toNat, h, ?_⟩
    rw [BitVec.ofNat_toNat, BitVec.setWidth_eq]
    bv_omega

theorem covers_bitmap (x y cnt h : Byte) (bm : Nat → Byte) (x' y' : Byte) :
    (∃ r, r < h.toNat ∧ ∃ j, j < cnt.toNat ∧
      Row 8 (x + BitVec.ofNat 8 (8 * j)) (y + BitVec.ofNat 8 r) 0 (bm (r * cnt.toNat + j)) x' y')
      ↔ Covers (.bitmap x y cnt h bm) x' y' := by
  have s1 : stepX 0 = 1#8 := rfl
  have s2 : stepY 0 = 0#8 := rfl
  constructor
  · rintro ⟨r, hr, j, hj, i, hi, _, hb, e1, e2⟩
    refine ⟨r, 8 * j + i, hr, by omega, ?_, ?_, ?_⟩
    · rw [e1, s1, BitVec.mul_one, BitVec.ofNat_add, BitVec.add_assoc]
    · rw [e2, s2, BitVec.mul_zero, BitVec.add_zero]
    · have h1 : (8 * j + i) / 8 = j := by omega
      have h2 : (8 * j + i) % 8 = i := by omega
      rw [h1, h2]; exact hb
  · rintro ⟨r, i, hr, hi, e1, e2, hb⟩
    refine ⟨r, hr, i / 8, by omega, i % 8, by omega, by omega, hb, ?_, ?_⟩
    · rw [e1, s1, BitVec.mul_one, BitVec.add_assoc, ← BitVec.ofNat_add]
      have : 8 * (i / 8) + i % 8 = i := by omega
      rw [this]
    · rw [e2, s2, BitVec.mul_zero, BitVec.add_zero]

theorem draws_exec {u} (hu : Ready u) (c : Cmd) (hc : Allowed c) (hn : ∀ i, c ≠ .color i) :
    Draws u (exec u c) (Covers c) := by
  cases c with
  | color i => exact absurd rfl (hn i)
  | pixel x y => exact draws_pixel hu x y
  | hline x y w =>
    refine (draws_drawHLine hu x y w).congr fun x' y' _ => ?_
    simp only [Covers, span_iff]
    exact ⟨fun ⟨a, b⟩ => ⟨b, a⟩, fun ⟨a, b⟩ => ⟨b, a⟩⟩
  | vline x y h =>
    refine (draws_drawVLine hu x y h).congr fun x' y' _ => ?_
    simp only [Covers, span_iff]
  | frame x y w h =>
    refine (draws_frame hu x y w h hc.1 hc.2).congr fun x' y' _ => ?_
    simp only [Covers, span_iff]
  | box x y w h =>
    refine (draws_drawBox hu x y w h hc).congr fun x' y' _ => ?_
    simp only [Covers, span_iff]
  | bitmap x y cnt h bm =>
    exact (draws_bitmap hu x y cnt h bm hc).congr fun x' y' _ => covers_bitmap x y cnt h bm x' y'
  | dots ps => exact draws_dots ps u hu
  | circle x0 y0 rad opt => exact draws_circle hu x0 y0 rad opt hc
  | disc x0 y0 rad opt => exact draws_disc hu x0 y0 rad opt hc
  | rframe x y w h r => exact draws_rframe hu x y w h r hc.1 hc.2.1 hc.2.2
  | rbox x y w h r => exact draws_rbox hu x y w h r hc.1 hc.2.1 hc.2.2
  | text mem mode pos dir x y s => exact draws_text hu mem mode pos dir x y s hc
  | xbm x y w h bm => exact draws_xbm hu x y w h bm hc

theorem lastColor_cons (c : Cmd) (cs : List Cmd) (i : Byte) (hn : ∀ i, c ≠ .color i) :
    lastColor (c :: cs) i = lastColor cs i := by
  cases c <;> first | rfl | exact absurd rfl (hn _)

open Classical in
theorem look_draw (px py : Byte) (s : Byte × Bool) (c : Cmd) (hn : ∀ i, c ≠ .color i) :
    look px py s c = (s.1, if Covers c px py then decide (s.1 ≠ 0) else s.2) := by
  cases c <;> first | rfl | exact absurd rfl (hn _)

/-- What a drawing procedure does on the current page. -/
theorem draw_spec : ∀ (cs : List Cmd) (u : U8g), (∀ c ∈ cs, Allowed c) → Ready u →
    Ready (draw u cs) ∧ (draw u cs).pb.p = u.pb.p ∧ (draw u cs).pb.width = u.pb.width ∧
    (draw u cs).rot = u.rot ∧ (draw u cs).color = lastColor cs u.color ∧
    (draw u cs).sent = u.sent ∧
    (∀ i, u.pb.width.toNat ≤ i → (draw u cs).pb.mem i = u.pb.mem i) ∧
    (∀ x y, OnPage u.rot u.pb x y →
      shown u.rot (draw u cs).pb x y
        = (cs.foldl (look x y) (u.color, shown u.rot u.pb x y)).2) := by
  intro cs
  induction cs with
  | nil => intro u _ hu; exact ⟨hu, rfl, rfl, rfl, rfl, rfl, fun _ _ => rfl, fun _ _ _ => rfl⟩
  | cons c cs ih =>
    intro u ha hu
    have hac := ha c (by simp)
    have has : ∀ d ∈ cs, Allowed d := fun d hd => ha d (by simp [hd])
    by_cases hn : ∀ i, c ≠ .color i
    · have d := draws_exec hu c hac hn
      have dr := d.ready hu
      obtain ⟨d1, d2⟩ := d
      have er : (exec u c).rot = u.rot := by rw [d1]
      have ec : (exec u c).color = u.color := by rw [d1]
      have es : (exec u c).sent = u.sent := by rw [d1]
      obtain ⟨a, b, e, f, g, g', h, k⟩ := ih (exec u c) has dr
      refine ⟨a, b.trans d2.p, e.trans d2.width, f.trans er, ?_, g'.trans es, ?_, ?_⟩
      · rw [lastColor_cons c cs _ hn, ← ec]; exact g
      · intro i hi
        exact (h i (by rw [d2.width]; exact hi)).trans (d2.off i hi)
      · intro x y ho
        have ho' : OnPage (exec u c).rot (exec u c).pb x y := by
          rw [er]; exact (onPage_congr d2.p d2.width x y).2 ho
        have kk := k x y ho'
        rw [er, ec, d2.on x y ho] at kk
        rw [List.foldl_cons, look_draw x y _ c hn]
        exact kk
    · have : ∃ i, c = .color i := by
        cases c <;> first | exact ⟨_, rfl⟩ | exact absurd (fun i h => by cases h) hn
      obtain ⟨i, rfl⟩ := this
      exact ih (setColorIndex u i) has ⟨hu.page, hu.box⟩

/-- State at the beginning of page `k` of a display with `W` columns and `H` rows. -/
structure AtPage (W H k : Nat) (u : U8g) : Prop where
  width : u.pb.width.toNat = W
  ph : u.pb.p.pageHeight = 8
  th : u.pb.p.totalHeight.toNat = H
  y0 : u.pb.p.y0.toNat = 8 * k
  y1 : u.pb.p.y1.toNat = min (8 * k + 7) (H - 1)
  page : u.pb.p.page = BitVec.ofNat 8 k
  box : u.box = pageBox u.rot u.pb

theorem AtPage.ready {W H k u} (h : AtPage W H k u) (hW : 0 < W) (hk : 8 * k < H) : Ready u := by
  have h1 := h.width; have h2 := h.th; have h3 := h.y0; have h4 := h.y1
  refine ⟨⟨?_, ?_, ?_, ?_⟩, h.box⟩
  · rw [BitVec.lt_def]; simp; omega
  · rw [BitVec.le_def]; omega
  · rw [BitVec.lt_def, BitVec.toNat_sub]
    have : (8 : Byte).toNat = 8 := rfl
    have := u.pb.p.y1.isLt
    omega
  · rw [BitVec.lt_def]; omega

theorem rot_user {r : Rot} {b : Pb} {W H X Y : Nat} (hW : b.width.toNat = W)
    (hH : b.p.totalHeight.toNat = H) (hX : X < W) (hY : Y < H) :
    rotX r b (BitVec.ofNat 8 (userPoint r W H X Y).1) (BitVec.ofNat 8 (userPoint r W H X Y).2)
        = BitVec.ofNat 8 X ∧
      rotY r b (BitVec.ofNat 8 (userPoint r W H X Y).1) (BitVec.ofNat 8 (userPoint r W H X Y).2)
        = BitVec.ofNat 8 Y := by
  have hw := b.width.isLt
  have hh := b.p.totalHeight.isLt
  cases r
  · exact ⟨rfl, rfl⟩
  · refine ⟨?_, rfl⟩
    apply BitVec.eq_of_toNat_eq
    simp only [rotX, userPoint, BitVec.toNat_sub, BitVec.toNat_ofNat]
    have : (1 : Byte).toNat = 1 := rfl
    omega
  · constructor
    · apply BitVec.eq_of_toNat_eq
      simp only [rotX, userPoint, BitVec.toNat_sub, BitVec.toNat_ofNat]
      have : (1 : Byte).toNat = 1 := rfl
      omega
    · apply BitVec.eq_of_toNat_eq
      simp only [rotY, userPoint, BitVec.toNat_sub, BitVec.toNat_ofNat]
      have : (1 : Byte).toNat = 1 := rfl
      omega
  · refine ⟨rfl, ?_⟩
    apply BitVec.eq_of_toNat_eq
    simp only [rotY, userPoint, BitVec.toNat_sub, BitVec.toNat_ofNat]
    have : (1 : Byte).toNat = 1 := rfl
    omega

theorem getD_bufferBytes (b : Pb) (X : Nat) (hX : X < b.width.toNat) :
    (bufferBytes b).getD X 0 = b.mem X := by
  unfold bufferBytes
  rw [List.getD_eq_getElem?_getD, List.getElem?_map, List.getElem?_range hX]
  rfl

/-- The buffer after the drawing procedure holds the page of the picture. -/
theorem drawn_page {W H k u} (cs : List Cmd) (ha : ∀ c ∈ cs, Allowed c) (h : AtPage W H k u)
    (hW : 0 < W) (hk : 8 * k < H) (hz : ∀ i, i < W → u.pb.mem i = 0) :
    IsPage cs u.color u.rot W H k ((draw u cs).pb.p.page, bufferBytes (draw u cs).pb) := by
  have hu := h.ready hW hk
  obtain ⟨_, dp, dw, _, _, _, _, dk⟩ := draw_spec cs u ha hu
  refine ⟨?_, ?_, ?_⟩
  · show (draw u cs).pb.p.page = _
    rw [dp]; exact h.page
  · show (bufferBytes (draw u cs).pb).length = W
    unfold bufferBytes
    rw [List.length_map, List.length_range, dw, h.width]
  · intro X j hX hj hH
    show ((bufferBytes (draw u cs).pb).getD X 0).getLsbD j = _
    rw [getD_bufferBytes _ X (by rw [dw, h.width]; exact hX)]
    obtain ⟨e1, e2⟩ := rot_user (r := u.rot) (b := u.pb) h.width h.th hX hH
    have hwl := u.pb.width.isLt
    have hhl := u.pb.p.totalHeight.isLt
    have hw := h.width; have ht := h.th; have h0 := h.y0; have h1 := h.y1
    unfold expected
    generalize BitVec.ofNat 8 (userPoint u.rot W H X (8 * k + j)).1 = ux at e1 e2
    generalize BitVec.ofNat 8 (userPoint u.rot W H X (8 * k + j)).2 = uy at e1 e2
    have nX : (BitVec.ofNat 8 X : Byte).toNat = X := by rw [BitVec.toNat_ofNat]; omega
    have nY : (BitVec.ofNat 8 (8 * k + j) : Byte).toNat = 8 * k + j := by
      rw [BitVec.toNat_ofNat]; omega
    have ho : OnPage u.rot u.pb ux uy := by
      unfold OnPage
      rw [e1, e2, BitVec.lt_def, BitVec.le_def, BitVec.le_def, nX, nY]
      omega
    have key := dk ux uy ho
    have hsub : (BitVec.ofNat 8 (8 * k + j) - u.pb.p.y0 : Byte).toNat = j := by
      rw [BitVec.toNat_sub, nY, h0]; omega
    have s1 : shown u.rot (draw u cs).pb ux uy = ((draw u cs).pb.mem X).getLsbD j := by
      unfold shown
      rw [rotX_congr dp dw, rotY_congr dp, dp, e1, e2, nX, hsub]
    have s2 : shown u.rot u.pb ux uy = false := by
      unfold shown
      rw [e1, nX, hz X hX]
      simp
    rw [s1, s2] at key
    exact key

theorem lastColor_cases (cs : List Cmd) :
    (∀ c, lastColor cs c = c) ∨ (∃ d, ∀ c, lastColor cs c = d) := by
  induction cs with
  | nil => exact Or.inl fun _ => rfl
  | cons c cs ih =>
    by_cases hn : ∀ i, c ≠ .color i
    · rcases ih with h | ⟨d, h⟩
      · exact Or.inl fun i => by rw [lastColor_cons c cs i hn]; exact h i
      · exact Or.inr ⟨d, fun i => by rw [lastColor_cons c cs i hn]; exact h i⟩
    · have : ∃ i, c = .color i := by
        cases c <;> first | exact ⟨_, rfl⟩ | exact absurd (fun i h => by cases h) hn
      obtain ⟨i, rfl⟩ := this
      exact Or.inr ⟨lastColor cs i, fun _ => rfl⟩

theorem lastColor_idem (cs : List Cmd) (c : Byte) :
    lastColor cs (lastColor cs c) = lastColor cs c := by
  rcases lastColor_cases cs with h | ⟨d, h⟩
  · rw [h]
  · rw [h, h]

theorem atPage_next {W H k u v} (h : AtPage W H k u) (hH : H ≤ 248) (hk : 8 * (k + 1) < H)
    (hp : v.pb.p = (pageNext u.pb.p).1) (hw : v.pb.width = u.pb.width)
    (hb : v.box = pageBox v.rot v.pb) :
    (pageNext u.pb.p).2 = true ∧ AtPage W H (k + 1) v := by
  have h1 := h.width; have h2 := h.th; have h3 := h.y0; have h4 := h.y1
  have n8 : (8 : Byte).toNat = 8 := rfl
  have n1 : (1 : Byte).toNat = 1 := rfl
  have y0' : (u.pb.p.y0 + u.pb.p.pageHeight).toNat = 8 * (k + 1) := by
    rw [h.ph, BitVec.toNat_add, n8]; omega
  have y1' : (u.pb.p.y1 + u.pb.p.pageHeight).toNat = 8 * (k + 1) + 7 := by
    rw [h.ph, BitVec.toNat_add, n8]; omega
  have c1 : ¬ u.pb.p.totalHeight ≤ u.pb.p.y0 + u.pb.p.pageHeight := by
    rw [BitVec.le_def, y0']; omega
  unfold pageNext at hp ⊢
  rw [if_neg c1] at hp ⊢
  refine ⟨rfl, ?_⟩
  refine ⟨?_, ?_, ?_, ?_, ?_, ?_, hb⟩
  · rw [hw]; exact h1
  · rw [hp]; exact h.ph
  · rw [hp]; exact h2
  · rw [hp]; exact y0'
  · rw [hp]
    show (if u.pb.p.totalHeight ≤ u.pb.p.y1 + u.pb.p.pageHeight then u.pb.p.totalHeight - 1
      else u.pb.p.y1 + u.pb.p.pageHeight).toNat = _
    by_cases c2 : u.pb.p.totalHeight ≤ u.pb.p.y1 + u.pb.p.pageHeight
    · rw [if_pos c2]
      rw [BitVec.le_def, y1'] at c2
      rw [BitVec.toNat_sub, n1]
      omega
    · rw [if_neg c2, y1']
      rw [BitVec.le_def, y1'] at c2
      omega
  · rw [hp]
    show u.pb.p.page + 1 = _
    rw [h.page, BitVec.ofNat_add]
    rfl

theorem pageNext_last {W H k u} (h : AtPage W H k u) (hk0 : 8 * k < H) (hH : H ≤ 248)
    (hk : H ≤ 8 * (k + 1)) : (pageNext u.pb.p).2 = false := by
  have h2 := h.th; have h3 := h.y0
  have n8 : (8 : Byte).toNat = 8 := rfl
  have y0' : (u.pb.p.y0 + u.pb.p.pageHeight).toNat = 8 * (k + 1) := by
    rw [h.ph, BitVec.toNat_add, n8]; omega
  have c1 : u.pb.p.totalHeight ≤ u.pb.p.y0 + u.pb.p.pageHeight := by
    rw [BitVec.le_def, y0']; omega
  unfold pageNext
  rw [if_pos c1]

theorem atPage_congr {W H k u v} (h : AtPage W H k u) (hp : v.pb.p = u.pb.p)
    (hw : v.pb.width = u.pb.width) (hb : v.box = pageBox v.rot v.pb) : AtPage W H k v :=
  ⟨by rw [hw]; exact h.width, by rw [hp]; exact h.ph, by rw [hp]; exact h.th,
    by rw [hp]; exact h.y0, by rw [hp]; exact h.y1, by rw [hp]; exact h.page, hb⟩

/-- The loop from page `k` on, with `m` more pages after it. -/
theorem loop_spec (cs : List Cmd) (ha : ∀ c ∈ cs, Allowed c) {W H : Nat} (hW : 0 < W)
    (hH : H ≤ 248) :
    ∀ (m k : Nat) (u : U8g), 8 * (k + m) < H → H ≤ 8 * (k + m + 1) → AtPage W H k u →
      (∀ i, i < W → u.pb.mem i = 0) → ∀ n, m + 1 ≤ n →
      ∃ u' out, pictureLoop cs n u = some u' ∧ u'.sent = u.sent ++ out ∧ out.length = m + 1 ∧
        (∀ i e, out[i]? = some e →
          IsPage cs (if i = 0 then u.color else lastColor cs u.color) u.rot W H (k + i) e) ∧
        (∀ i, W ≤ i → u'.pb.mem i = u.pb.mem i) := by
  intro m
  induction m with
  | zero =>
    intro k u h1 h2 hat hz n hn
    obtain ⟨n, rfl⟩ : ∃ q, n = q + 1 := ⟨n - 1, by omega⟩
    obtain ⟨dr, dp, dw, drot, dc, ds, doff, _⟩ := draw_spec cs u ha (hat.ready hW (by omega))
    have hat' : AtPage W H k (draw u cs) := atPage_congr hat dp dw dr.box
    have hlast := pageNext_last hat' (by omega) hH (by omega)
    have hpg := drawn_page cs ha hat hW (by omega) hz
    refine ⟨(nextPage (draw u cs)).1, [((draw u cs).pb.p.page, bufferBytes (draw u cs).pb)],
      ?_, ?_, rfl, ?_, ?_⟩
    · rw [pictureLoop]
      have : (nextPage (draw u cs)).2 = false := by
        unfold nextPage; simp [hlast]
      simp [this]
    · unfold nextPage
      simp [hlast, ds]
    · intro i e he
      cases i with
      | zero =>
        simp at he
        subst he
        exact hpg
      | succ i => simp at he
    · intro i hi
      have e1 : (nextPage (draw u cs)).1.pb.mem i = (draw u cs).pb.mem i := by
        unfold nextPage; simp [hlast]
      rw [e1]
      exact doff i (by rw [hat.width]; exact hi)
  | succ m ih =>
    intro k u h1 h2 hat hz n hn
    obtain ⟨n, rfl⟩ : ∃ q, n = q + 1 := ⟨n - 1, by omega⟩
    obtain ⟨dr, dp, dw, drot, dc, ds, doff, _⟩ := draw_spec cs u ha (hat.ready hW (by omega))
    have hat' : AtPage W H k (draw u cs) := atPage_congr hat dp dw dr.box
    have hpg := drawn_page cs ha hat hW (by omega) hz
    generalize hv : (nextPage (draw u cs)).1 = v
    have hnx : (pageNext (draw u cs).pb.p).2 = true := by
      refine (atPage_next hat' hH (by omega) (v := ?_) ?_ ?_ ?_).1
      · exact updateDimension { draw u cs with
          pb := clear { (draw u cs).pb with p := (pageNext (draw u cs).pb.p).1 } }
      · rfl
      · rfl
      · rfl
    have hnp : nextPage (draw u cs)
        = (updateDimension { draw u cs with
            pb := clear { (draw u cs).pb with p := (pageNext (draw u cs).pb.p).1 }
            sent := (draw u cs).sent
              ++ [((draw u cs).pb.p.page, bufferBytes (draw u cs).pb)] }, true) := by
      unfold nextPage; simp [hnx]
    have hv' := hv
    rw [hnp] at hv
    have vp : v.pb.p = (pageNext (draw u cs).pb.p).1 := by rw [← hv]; rfl
    have vw : v.pb.width = (draw u cs).pb.width := by rw [← hv]; rfl
    have vb : v.box = pageBox v.rot v.pb := by rw [← hv]; rfl
    have vr : v.rot = u.rot := by rw [← hv]; exact drot
    have vc : v.color = lastColor cs u.color := by rw [← hv]; exact dc
    have vs : v.sent = u.sent ++ [((draw u cs).pb.p.page, bufferBytes (draw u cs).pb)] := by
      rw [← hv]
      show (draw u cs).sent ++ _ = _
      rw [ds]
    have vz : ∀ i, i < W → v.pb.mem i = 0 := by
      intro i hi
      rw [← hv]
      show (if i < (draw u cs).pb.width.toNat then 0 else _) = _
      rw [if_pos (by rw [dw, hat.width]; exact hi)]
    have voff : ∀ i, W ≤ i → v.pb.mem i = u.pb.mem i := by
      intro i hi
      rw [← hv]
      show (if i < (draw u cs).pb.width.toNat then 0 else (draw u cs).pb.mem i) = _
      rw [if_neg (by rw [dw, hat.width]; omega)]
      exact doff i (by rw [hat.width]; exact hi)
    have vat : AtPage W H (k + 1) v := (atPage_next hat' hH (by omega) vp vw vb).2
    obtain ⟨u', out, l1, l2, l3, l4, l5⟩ := ih (k + 1) v (by omega) (by omega) vat vz n (by omega)
    refine ⟨u', ((draw u cs).pb.p.page, bufferBytes (draw u cs).pb) :: out, ?_, ?_, ?_, ?_, ?_⟩
    · rw [pictureLoop]
      have : (nextPage (draw u cs)).2 = true := by rw [hnp]
      simp only [this, if_true, hv']
      exact l1
    · rw [l2, vs]; simp
    · simp [l3]
    · intro i e he
      cases i with
      | zero =>
        simp at he
        subst he
        exact hpg
      | succ i =>
        rw [List.getElem?_cons_succ] at he
        have := l4 i e he
        rw [vr, vc, lastColor_idem] at this
        have hk' : k + 1 + i = k + (i + 1) := by omega
        rw [hk'] at this
        by_cases hi : i = 0
        · subst hi; simpa using this
        · simpa [hi] using this
    · intro i hi
      rw [l5 i hi, voff i hi]

theorem atPage_first {u : U8g} {W H : Nat} (hw : u.pb.width.toNat = W)
    (hp : u.pb.p.pageHeight = 8) (ht : u.pb.p.totalHeight.toNat = H) (h8 : 8 ≤ H) :
    AtPage W H 0 (firstPage u) ∧ (∀ i, i < W → (firstPage u).pb.mem i = 0) ∧
      (∀ i, W ≤ i → (firstPage u).pb.mem i = u.pb.mem i) := by
  refine ⟨⟨hw, hp, ht, rfl, ?_, rfl, rfl⟩, ?_, ?_⟩
  · show (u.pb.p.pageHeight - 1).toNat = _
    rw [hp]
    have : ((8 : Byte) - 1).toNat = 7 := rfl
    omega
  · intro i hi
    show (if i < u.pb.width.toNat then 0 else _) = _
    rw [if_pos (by omega)]
  · intro i hi
    show (if i < u.pb.width.toNat then 0 else u.pb.mem i) = _
    rw [if_neg (by omega)]

end Verif.U8g
