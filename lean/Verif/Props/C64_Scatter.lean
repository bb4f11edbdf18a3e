import Verif.Lemmas.PaintingTotal
import Verif.Props.C64_Painting

/-!
# C64 for brushes that scatter or snap: paint stays near the pen

As C64, for brushes with tracking noise, random offset, random radius and snapping.
-/

namespace Verif.Painting
open Verif.Full Verif.Dab Verif.Engine Verif.Blend Verif.Map Verif.Mask

section
variable {K R σ : Type} [Field K] [LinearOrder K] [IsStrictOrderedRing K] [FloorRing K]

/-- The dabs of a session, whatever it paints on. -/
theorem near_invariant {C : K → K → Prop} (hC : Engine.Convex C) (e : Engine.Env K R σ) (he : Decays e) {s0 : Load.Brush K}
    {N B d : K} (hsp : Spread e s0 N B d) :
    Invariant (recordDabs e) (fun ev => C ev.x ev.y) (Widened C N)
      (fun b w => (Scatter (recordDabs e) b.settings N B ∧ BrushIn (Widened C N) b) ∧ b.settings = s0 ∧
        ∀ a ∈ w.2, DabNear C s0 d a)
      (fun b w => (((Scatter (recordDabs e) b.settings N B ∧ BrushIn (Widened C N) b) ∧
        ∃ i, b.vals = fun id => calculate (b.settings id) i) ∧ Shaped (recordDabs e) b) ∧ b.settings = s0 ∧
        ∀ a ∈ w.2, DabNear C s0 d a) := by
  refine Invariant.also (Engine.Invariant.fresh (around_invariant hC (recordDabs e) he N B) (Shaped (recordDabs e))
    (fun b b' st hu => update_shaped hu)) (fun s w => s = s0 ∧ ∀ a ∈ w.2, DabNear C s0 d a) ?_
  rintro br w lin p ⟨⟨⟨hsc, hin⟩, -⟩, hsh⟩ ⟨hs, hw⟩ hp
  refine ⟨hs, ?_⟩
  have hsp' : Spread (recordDabs e) br.settings N B d := by
    rw [hs]
    exact ⟨⟨hsp.scatter.room, hsp.scatter.noise, hsp.scatter.speed, hsp.scatter.random⟩, hsp.parts, hsp.snap, hsp.small⟩
  have hin' : BrushIn (Widened C N) ({ br with st := { br.st with flip := br.st.flip * -1 } } : Brush K R) := ⟨hin.1, hin.2⟩
  obtain ⟨i, hv, h2, h3⟩ := id hsh
  have hsh' : Shaped (recordDabs e) ({ br with st := { br.st with flip := br.st.flip * -1 } } : Brush K R) := ⟨i, hv, h2, h3⟩
  rcases drawDab_oneDab hp with h | ⟨o, pos, sm, col, -, hpos, -, -, -, fr2, -, h⟩
  · rw [h]; exact hw
  · rw [h]
    intro a ha
    rcases List.mem_append.mp ha with q | q
    · exact hw a q
    · rw [List.mem_singleton.mp q, ← hs]
      exact dabArgs_near (e := recordDabs e) (C := C) (b := { br with st := { br.st with flip := br.st.flip * -1 } })
        (d := d) (o := o) hsp' hin' hsh' hpos fr2 _ _ _ _

/-- **C64 for brushes that scatter or snap**. The brush may have tracking noise, a random offset, a random radius and it may
snap to pixels; no dab reaches farther than `d` from the pen, by the settings of the brush (`Spread`). No symmetry; the pen stays
in a convex region, over any number of blocks, whatever the random numbers. Then no pixel changes its colour whose centre is
farther than `d + 1/2` from every point of the region, in one of the directions. -/
theorem scattered_paint_stays_near_the_pen {e : Engine.Env K R σ} (hd : Decays e) {b : Build} {env : Dab.Env K} (he : env.Valid)
    {trig : Symm.Trig K} {sch : Schedule} {fuel : Nat} {C : K → K → Prop} (hC : Engine.Convex C) {N B d : K}
    (bls : List (Block K)) {s s' : Studio K R} (hs : s.Fine b env trig)
    (hb : ∀ bl ∈ bls, bl.Ok ∧ bl.symmetry = none ∧ ∀ m ∈ bl.motions, ∀ x y, Place m x y → C x y)
    (ha : s.surf.symm.active = false) (hsp : Spread e s.brush.settings N B d)
    (hb0 : C s.brush.st.x s.brush.st.y) (hb1 : C s.brush.st.actualX s.brush.st.actualY)
    (h : paint e b env trig sch fuel s bls = .ok s') (X Y : Int) (hfar : ¬ Near C (d + 1 / 2) X Y) {q : Px}
    (hq : pixel s'.surf.surf.canvas X Y = .ok q) : pixel s.surf.surf.canvas X Y = .ok q := by
  refine (paint_keeps (I := fun br => br.settings = s.brush.settings ∧ BrushIn (Widened C N) br)
    (Q := fun c => ∀ q, pixel c X Y = .ok q → pixel s.surf.surf.canvas X Y = .ok q)
    (B := fun bl => bl.symmetry = none ∧ ∀ m ∈ bl.motions, ∀ x y, Place m x y → C x y) (S := fun d => d.active = false)
    ?_ ?_ ?_ bls hs hb ha ⟨rfl, ⟨widened_self hsp.scatter.room.1 hb0, widened_self hsp.scatter.room.1 hb1⟩⟩ (fun _ h => h) h).2.2
    q hq
  · intro bl s hB ha
    unfold Block.setUp
    rw [hB.1]
    exact ha
  · intro d d' h h'
    rw [h', h]
  · intro bl br w r hB hu hI hr
    obtain ⟨hI, hI0⟩ := hI
    have hsp' : Spread (onTiles e b env sch) s.brush.settings N B d :=
      ⟨⟨hsp.scatter.room, hsp.scatter.noise, hsp.scatter.speed, hsp.scatter.random⟩, hsp.parts, hsp.snap, hsp.small⟩
    have H := (near_invariant hC (onTiles e b env sch) hd hsp').events
      (E' := fun ev => C ev.x ev.y ∧ |ev.x| < 10 ^ 8 ∧ |ev.y| < 10 ^ 8) (fun _ h => h.1)
    have k := (session_keeps H (fun m => ∀ x y, Place m x y → C x y)
      (fun m ev hm hev => ⟨hm _ _ (sanitise_place hev), sanitise_bound hev⟩)
      (fun ev i he hi => by
        have q := workaround_place he.2.1 he.2.2 hi
        rw [q.1, q.2]; exact he)
      (fun ev he => he) bl.motions hB.2 hu
      ⟨⟨⟨hsp.scatter.room, by rw [hI]; exact hsp.scatter.noise, by rw [hI]; exact hsp.scatter.speed,
        by rw [hI]; exact hsp.scatter.random⟩, hI0⟩, hI, by simp⟩ hr).1
    obtain ⟨⟨-, k1⟩, k2, k3⟩ := k
    refine ⟨⟨k2, k1⟩, ?_⟩
    intro a hin x y θ dt hda hxy op hop c hc p hp
    obtain ⟨ex, ey, er⟩ := moved_op hop
    obtain ⟨ax, ay, -⟩ := hxy hda
    obtain ⟨p0, hp0⟩ := pixel_sticky hp
    by_cases hpp : p0 = p
    · exact hc p (hpp ▸ hp0)
    exfalso
    apply hfar
    obtain ⟨⟨x1, x2⟩, y1, y2⟩ := pixel_changed he (prepare_valid hop) hp0 hp hpp
    obtain ⟨px, py, hCp, dx, dy⟩ := (k3 a hin).near
    have lo : ∀ (v : K) (n : Int), ⌊v⌋ ≤ n → v - 1 < n := by
      intro v n hn
      have a := Int.lt_floor_add_one v
      have b : ((⌊v⌋ : Int) : K) ≤ n := by exact_mod_cast hn
      linarith
    have hi' : ∀ (v : K) (n : Int), n ≤ ⌊v⌋ → (n : K) ≤ v := by
      intro v n hn
      exact (by exact_mod_cast hn : (n : K) ≤ ⌊v⌋).trans (Int.floor_le v)
    have b1 := lo _ _ x1
    have b2 := hi' _ _ x2
    have b3 := lo _ _ y1
    have b4 := hi' _ _ y2
    rw [ex, er, ax] at b1 b2
    rw [ey, er, ay] at b3 b4
    have o1 := abs_le.mp (le_refl |a.x - px|)
    have o2 := abs_le.mp (le_refl |a.y - py|)
    refine ⟨px, py, hCp, abs_le.mpr ⟨?_, ?_⟩, abs_le.mpr ⟨?_, ?_⟩⟩ <;> linarith [o1.1, o1.2, o2.1, o2.2]

end

/-! ### A session that meets the hypotheses -/

namespace Demo

/-- The brush of C64 with tracking noise and a random offset. -/
def spraying : Brush ℚ Nat := Engine.Demo.set (Engine.Demo.set red sOffsetByRandom 1) sTrackingNoise (1 / 4)

theorem spraying_value (id : Nat) (i : Nat → ℚ) : calculate (spraying.settings id) i = (spraying.settings id).base := by
  show calculate (if id = sTrackingNoise then Engine.Demo.constant (1 / 4) else if id = sOffsetByRandom then
      Engine.Demo.constant 1 else red.settings id) i =
    (if id = sTrackingNoise then Engine.Demo.constant (1 / 4) else if id = sOffsetByRandom then
      Engine.Demo.constant 1 else red.settings id).base
  split_ifs
  · rfl
  · rfl
  · exact red_value id i

theorem spraying_spread : Spread Engine.Demo.env spraying.settings (3 / 4) 3 (33 / 4) := by
  refine ⟨scatter_of_bound (G := 1) (fun r => ?_) (by norm_num) (by norm_num) (by decide +kernel) ?_ ?_,
    ⟨3, 1, 0, 0, by norm_num, le_refl _, le_refl _, by norm_num, ?_, .inr ⟨?_, ?_⟩, .inr ⟨?_, ?_, ?_, ?_, ?_, ?_, ?_, ?_⟩, .inr ?_⟩,
    ?_, by norm_num⟩
  · show |(1 : ℚ)| ≤ 1
    norm_num
  all_goals
    intro i
    rw [spraying_value]
    decide +kernel

/-- The theorem says that the stroke leaves the pixel in column 63, row 30 alone ... -/
example {s s' : Studio ℚ Nat} (h0 : studio spraying ⟨0, 0, 0, 0⟩ = .ok s)
    (h : paint Engine.Demo.env .normal demoEnv demoTrig sch 100 s [strokeBlock events] = .ok s') {q : Px}
    (hq : pixel s'.surf.surf.canvas 63 30 = .ok q) : pixel s.surf.surf.canvas 63 30 = .ok q := by
  obtain ⟨s1, h1, hf, hb, -⟩ := studio_fine (br := spraying) ⟨⟨le_refl _, zero_lt_one⟩, le_refl _⟩ ⟨0, 0, 0, 0⟩
  rw [h0] at h1
  cases h1
  have ha : s.surf.symm.active = false := by
    have : (studio spraying ⟨0, 0, 0, 0⟩).toOption.map (fun s => s.surf.symm.active) = some false := by decide +kernel
    rw [h0] at this
    exact Option.some.inj this
  have hsp := spraying_spread
  rw [← hb] at hsp
  have far : ¬ Near box (33 / 4 + 1 / 2) 63 30 := by
    rintro ⟨px, py, ⟨-, -, -, h⟩, -, h2⟩
    have := (abs_le.mp h2).2
    norm_num at this
    linarith
  obtain ⟨-, -, -, r4, r5, r6⟩ := red_local
  exact scattered_paint_stays_near_the_pen demo_decays demoEnv_valid box_convex _ hf
    (by rintro bl (hm : bl ∈ [_]); rw [List.mem_singleton.mp hm]; exact ⟨strokeBlock_ok _, rfl, r6⟩) ha hsp
    (by rw [hb]; exact r4) (by rw [hb]; exact r5) h 63 30 far hq

/-- ... the session, which does paint, and not where the brush without scatter does. -/
example : observe spraying ⟨0, 0, 0, 0⟩ events [(63, 10), (67, 13), (63, 30)] =
    some ([⟨62, 9, 12, 9⟩], [some ⟨0, 0, 0, 0⟩, some ⟨32766, 0, 0, 32766⟩, some ⟨0, 0, 0, 0⟩]) := by
  decide +kernel

end Demo

end Verif.Painting
