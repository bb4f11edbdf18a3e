import Verif.Model.GeglSurface
import Verif.Spec.Rectangle
import Mathlib.Order.Lattice
import Mathlib.Tactic.SplitIfs
import Mathlib.Tactic.Push

/-!
# C69 to C71: the surface over a GEGL buffer
-/

namespace Verif.Gegl
open Spec.Rect

/-! ### Specification -/

/-- The picture that a buffer shows: outside of the extent there is nothing. -/
def Obj.colourAt (o : Obj) (x y : Int) : Nat := if Has o.extent x y then o.stored x y else 0

/-- The picture that the events of a session ask for, from `pic`: tiles are painted; NULL as buffer starts over. -/
def pictureOf (pic : Int → Int → Nat) : List Event → Int → Int → Nat
  | [] => pic
  | .read _ :: es => pictureOf pic es
  | .write t colour :: es => pictureOf (fun x y => if x / 64 = t.x ∧ y / 64 = t.y then colour x y else pic x y) es
  | .setBuffer _ _ :: es => pictureOf (fun _ _ => 0) es

/-- A session in which the surface makes its buffers itself. -/
def Own : Event → Prop
  | .setBuffer a _ => a = .null
  | _ => True

/-! ### Rectangles -/

theorem has_boundingBox {a b : Rect} (ha : Proper a) (hb : Proper b) :
    Sub a (boundingBox a b) ∧ Sub b (boundingBox a b) ∧ Proper (boundingBox a b) := by
  unfold boundingBox Proper Spec.Rect.Sub Has at *
  split_ifs with h1 h2 h3
  · refine ⟨fun x y h => ?_, fun x y h => ?_, .inl rfl⟩ <;> simp only [Rect.zero] <;> omega
  · exact ⟨fun x y h => by omega, fun x y h => h, hb⟩
  · exact ⟨fun x y h => h, fun x y h => by omega, ha⟩
  · dsimp only
    refine ⟨fun x y h => ?_, fun x y h => ?_, ?_⟩ <;> omega

theorem boundingBox_least {a b r : Rect} (ha : Proper a) (hb : Proper b) (h1 : Sub a r) (h2 : Sub b r) :
    Sub (boundingBox a b) r := by
  intro x y h
  unfold boundingBox at h
  split_ifs at h with q1 q2 q3
  · simp only [Has, Rect.zero] at h; omega
  · exact h2 x y h
  · exact h1 x y h
  · have k1 := h1 a.x a.y (by unfold Has Proper at *; omega)
    have k2 := h1 (a.x + a.width - 1) (a.y + a.height - 1) (by unfold Has Proper at *; omega)
    have k3 := h2 b.x b.y (by unfold Has Proper at *; omega)
    have k4 := h2 (b.x + b.width - 1) (b.y + b.height - 1) (by unfold Has Proper at *; omega)
    unfold Has at *
    dsimp only at h
    omega

theorem tileBox_eq {t : TileIndex} {r : Rect} (h : tileBox t = .ok r) : r = ⟨t.x * 64, t.y * 64, 64, 64⟩ := by
  unfold tileBox chk at h
  simp only [bind, Except.bind, pure, Except.pure] at h
  split_ifs at h
  · exact (Except.ok.inj h).symm

theorem has_tile (t : TileIndex) (x y : Int) : Has ⟨t.x * 64, t.y * 64, 64, 64⟩ x y ↔ x / 64 = t.x ∧ y / 64 = t.y := by
  unfold Has
  dsimp only
  omega

/-! ### C69 -/

/-- The buffer is alive, its extent is the rectangle of the surface, and nothing is stored outside. -/
def Good (s : Surface) (h : Heap) (pic : Int → Int → Nat) : Prop :=
  Proper s.extentRect ∧ ∃ o, h s.buffer = some o ∧ o.extent = s.extentRect ∧ o.stored = pic ∧
    ∀ x y, ¬ Has o.extent x y → o.stored x y = 0

theorem bind_ok' {α β : Type} {a : Except Fault α} {f : α → Except Fault β} {b : β} (h : (a >>= f) = .ok b) :
    ∃ x, a = .ok x ∧ f x = .ok b := by
  cases a with
  | error e => cases h
  | ok x => exact ⟨x, rfl, h⟩

/-- What a request for writing does. -/
theorem write_eq {s s' : Surface} {h h' : Heap} {t : TileIndex} {c : Int → Int → Nat}
    (hw : write s h t c = .ok (s', h')) :
    ∃ o, h s.buffer = some o ∧ s' = ⟨boundingBox s.extentRect ⟨t.x * 64, t.y * 64, 64, 64⟩, s.buffer⟩ ∧
      h' s.buffer = some ⟨o.refs, boundingBox s.extentRect ⟨t.x * 64, t.y * 64, 64, 64⟩, paint o.stored t c⟩ ∧
      ∀ i, i ≠ s.buffer → h' i = h i := by
  unfold write at hw
  obtain ⟨⟨s1, h1⟩, hr, hw⟩ := bind_ok' hw
  unfold requestStart at hr
  obtain ⟨box, hb, hr⟩ := bind_ok' hr
  rw [if_neg (by simp)] at hr
  obtain ⟨h2, hs, hr⟩ := bind_ok' hr
  cases hr
  rw [tileBox_eq hb] at hs hw
  unfold setExtent at hs
  cases ho : h s.buffer with
  | none => rw [ho] at hs; cases hs
  | some o =>
    rw [ho] at hs
    cases hs
    dsimp only at hw
    have e : put h s.buffer (some ⟨o.refs, boundingBox s.extentRect ⟨t.x * 64, t.y * 64, 64, 64⟩, o.stored⟩) s.buffer =
      some ⟨o.refs, boundingBox s.extentRect ⟨t.x * 64, t.y * 64, 64, 64⟩, o.stored⟩ := if_pos rfl
    rw [e] at hw
    cases hw
    refine ⟨o, rfl, rfl, if_pos rfl, fun i hi => ?_⟩
    unfold put
    rw [if_neg hi, if_neg hi]

theorem step_good {s s' : Surface} {h h' : Heap} {pic : Int → Int → Nat} {e : Event} (ho : Own e) (hg : Good s h pic)
    (hs : step s h e = .ok (s', h')) : Good s' h' (pictureOf pic [e]) := by
  obtain ⟨hp, o, g1, g2, g3, g4⟩ := hg
  cases e with
  | read t =>
    have hs : requestStart s h t true = _ := hs
    unfold requestStart at hs
    obtain ⟨box, -, hs⟩ := bind_ok' hs
    rw [if_pos rfl, g1] at hs
    cases hs
    exact ⟨hp, o, g1, g2, g3, g4⟩
  | write t c =>
    obtain ⟨o', w1, rfl, w3, -⟩ := write_eq (show write s h t c = _ from hs)
    rw [g1] at w1
    cases w1
    have hb : Proper ⟨t.x * 64, t.y * 64, 64, 64⟩ := by unfold Proper; dsimp only; omega
    obtain ⟨b1, b2, b3⟩ := has_boundingBox hp hb
    refine ⟨b3, _, w3, rfl, ?_, ?_⟩
    · show paint o.stored t c = fun x y => if x / 64 = t.x ∧ y / 64 = t.y then c x y else pic x y
      rw [g3]
      rfl
    · intro x y hn
      show (if x / 64 = t.x ∧ y / 64 = t.y then c x y else o.stored x y) = 0
      rw [if_neg (fun q => hn (b2 x y ((has_tile t x y).mpr q)))]
      exact g4 x y (fun q => hn (b1 x y (g2 ▸ q)))
  | setBuffer a fresh =>
    have ha : a = .null := ho
    subst ha
    have hs : setBuffer s h .null fresh = _ := hs
    unfold setBuffer at hs
    rw [if_neg (by simp)] at hs
    obtain ⟨h1, -, hs⟩ := bind_ok' hs
    cases hs
    exact ⟨hp, _, if_pos rfl, rfl, rfl, fun _ _ _ => rfl⟩

theorem pictureOf_append (pic : Int → Int → Nat) (e : Event) (es : List Event) :
    pictureOf pic (e :: es) = pictureOf (pictureOf pic [e]) es := by
  cases e <;> rfl

/-- **C69**, one thread. However a new surface is used, as long as it makes its buffers itself: the buffer shows exactly
what was painted; the extent hides nothing. -/
theorem extent_hides_nothing_partial {h h' : Heap} {fresh : Nat} {s' : Surface} (es : List Event) (ho : ∀ e ∈ es, Own e)
    (hr : run (new h fresh).1 (new h fresh).2 es = .ok (s', h')) :
    ∃ o, h' s'.buffer = some o ∧ ∀ x y, o.colourAt x y = pictureOf (fun _ _ => 0) es x y := by
  have key : ∀ (es : List Event) (s : Surface) (h : Heap) (pic : Int → Int → Nat), (∀ e ∈ es, Own e) → Good s h pic →
      run s h es = .ok (s', h') → Good s' h' (pictureOf pic es) := by
    intro es
    induction es with
    | nil => intro s h pic _ hg hr; cases hr; exact hg
    | cons e es ih =>
      intro s h pic ho hg hr
      unfold run at hr
      obtain ⟨⟨s1, h1⟩, h2, hr⟩ := bind_ok' hr
      rw [pictureOf_append]
      exact ih s1 h1 _ (fun e he => ho e (List.mem_cons_of_mem _ he)) (step_good (ho e List.mem_cons_self) hg h2) hr
  obtain ⟨-, o, g1, g2, g3, g4⟩ := key es _ _ (fun _ _ => 0) ho
    ⟨.inl rfl, _, if_pos rfl, rfl, rfl, fun _ _ _ => rfl⟩ hr
  refine ⟨o, g1, fun x y => ?_⟩
  unfold Obj.colourAt
  rw [← g3]
  split_ifs with q
  · rfl
  · exact (g4 x y q).symm

/-- The extent is no larger than necessary: it lies in every rectangle that has all the painted tiles. -/
theorem extent_least {s s' : Surface} {h h' : Heap} (es : List Event) (ho : ∀ e ∈ es, Own e) {r : Rect}
    (hp : Proper s.extentRect) (hs : Sub s.extentRect r) (ht : ∀ t c, .write t c ∈ es → Sub ⟨t.x * 64, t.y * 64, 64, 64⟩ r)
    (hr : run s h es = .ok (s', h')) : Sub s'.extentRect r := by
  induction es generalizing s h with
  | nil => cases hr; exact hs
  | cons e es ih =>
    unfold run at hr
    obtain ⟨⟨s1, h1⟩, h2, hr⟩ := bind_ok' hr
    have key : Proper s1.extentRect ∧ Sub s1.extentRect r := by
      cases e with
      | read t =>
        have h2 : requestStart s h t true = _ := h2
        unfold requestStart at h2
        obtain ⟨box, -, h2⟩ := bind_ok' h2
        rw [if_pos rfl] at h2
        cases hb : h s.buffer with
        | none => rw [hb] at h2; cases h2
        | some o => rw [hb] at h2; cases h2; exact ⟨hp, hs⟩
      | write t c =>
        obtain ⟨o', w1, rfl, w3, -⟩ := write_eq (show write s h t c = _ from h2)
        have hb : Proper ⟨t.x * 64, t.y * 64, 64, 64⟩ := by unfold Proper; dsimp only; omega
        exact ⟨(has_boundingBox hp hb).2.2, boundingBox_least hp hb hs (ht t c List.mem_cons_self)⟩
      | setBuffer a fresh =>
        have ha : a = .null := ho _ List.mem_cons_self
        subst ha
        have h2 : setBuffer s h .null fresh = _ := h2
        unfold setBuffer at h2
        rw [if_neg (by simp)] at h2
        obtain ⟨h1, -, h2⟩ := bind_ok' h2
        cases h2
        exact ⟨hp, hs⟩
    exact ih (fun e he => ho e (List.mem_cons_of_mem _ he)) key.1 key.2
      (fun t c h => ht t c (List.mem_cons_of_mem _ h)) hr

/-- Two tiles are painted, one is only read: the extent is the least rectangle with both. -/
def demoEvents : List Event := [.write ⟨-1, 0⟩ (fun _ _ => 5), .read ⟨9, 9⟩, .write ⟨1, 1⟩ (fun _ _ => 6)]

example : (∀ e ∈ demoEvents, Own e) ∧ ∃ s h o, run (new (fun _ => none) 3).1 (new (fun _ => none) 3).2 demoEvents = .ok (s, h) ∧
    h s.buffer = some o ∧ o.extent = ⟨-64, 0, 192, 128⟩ ∧ o.colourAt (-10) 10 = 5 ∧ o.colourAt 70 70 = 6 ∧
    o.colourAt 600 600 = 0 := by
  refine ⟨?_, _, _, _, rfl, rfl, by decide, by decide, by decide, by decide⟩
  simp [demoEvents, Own]

/-- **C69 fails** with two threads: both read the rectangle before either writes it; at the end the first tile is outside of
the extent. -/
theorem racing_requests_lose_a_tile : ∃ p, interleave ⟨Rect.zero, Rect.zero, fun _ => .start⟩
      [⟨0, 0⟩, ⟨1, 0⟩, ⟨0, 0⟩, ⟨0, 0⟩, ⟨1, 0⟩, ⟨1, 0⟩] = .ok p ∧
    p.worker ⟨0, 0⟩ = .finished ∧ p.worker ⟨1, 0⟩ = .finished ∧ ¬ Has p.extent 10 10 ∧ Has p.extent 70 10 :=
  ⟨_, rfl, rfl, rfl, by decide, by decide⟩

/-- One after the other, the two tiles are inside. -/
example : ∃ p, interleave ⟨Rect.zero, Rect.zero, fun _ => .start⟩
      [⟨0, 0⟩, ⟨0, 0⟩, ⟨0, 0⟩, ⟨1, 0⟩, ⟨1, 0⟩, ⟨1, 0⟩] = .ok p ∧
    p.worker ⟨0, 0⟩ = .finished ∧ p.worker ⟨1, 0⟩ = .finished ∧ Has p.extent 10 10 ∧ Has p.extent 70 10 :=
  ⟨_, rfl, rfl, rfl, by decide, by decide⟩

/-- For every number of threads and every interleaving: a tile is inside the extent at the moment its thread alone has
passed, that is, if no other thread is between reading and setting. -/
theorem lone_request_covered {p p1 p2 p3 : Shared} {t : TileIndex} (hs : p.worker t = .start) (hp : Proper p.extentRect)
    (h1 : micro p t = .ok p1) (h2 : micro p1 t = .ok p2) (h3 : micro p2 t = .ok p3) :
    Sub p.extentRect p3.extent ∧ Sub ⟨t.x * 64, t.y * 64, 64, 64⟩ p3.extent ∧ p3.extent = p3.extentRect := by
  unfold micro at h1
  rw [hs] at h1
  obtain ⟨box, hb, h1⟩ := bind_ok' h1
  cases h1
  unfold micro at h2
  simp only [if_true, pure, Except.pure] at h2
  cases h2
  unfold micro at h3
  simp only [if_true, pure, Except.pure] at h3
  cases h3
  rw [tileBox_eq hb]
  have hb : Proper ⟨t.x * 64, t.y * 64, 64, 64⟩ := by unfold Proper; dsimp only; omega
  obtain ⟨b1, b2, -⟩ := has_boundingBox hp hb
  exact ⟨b1, b2, rfl⟩

/-! ### C70 -/

/-- **C70 fails**: hand any buffer to a new surface and paint one tile: then the buffer shows nothing but that tile. -/
theorem handed_buffer_cropped {h h1 h2 : Heap} {fresh i : Nat} {s1 s2 : Surface} {t : TileIndex}
    {c : Int → Int → Nat} (hi : i ≠ fresh) (h1' : setBuffer (new h fresh).1 (new h fresh).2 (.buffer i) 0 = .ok (s1, h1))
    (h2' : write s1 h1 t c = .ok (s2, h2)) :
    ∃ o, h2 i = some o ∧ ∀ x y, ¬ (x / 64 = t.x ∧ y / 64 = t.y) → o.colourAt x y = 0 := by
  unfold setBuffer at h1'
  have e : ¬ (Arg.buffer i = .buffer (new h fresh).1.buffer) := fun q => hi (Arg.buffer.inj q)
  rw [if_neg e] at h1'
  obtain ⟨ha, -, h1'⟩ := bind_ok' h1'
  obtain ⟨hb, -, h1'⟩ := bind_ok' h1'
  cases h1'
  obtain ⟨o, -, -, w3, -⟩ := write_eq h2'
  refine ⟨_, w3, fun x y hn => ?_⟩
  unfold Obj.colourAt
  refine if_neg (fun q => hn ((has_tile t x y).mp ?_))
  simpa [boundingBox, new, Rect.zero] using q

/-- A buffer that shows 200 times 200 pixels of colour 7 loses the pixel (100, 100) to a write at tile (0, 0). -/
example : ∃ s1 h1 s2 h2 o o', (setBuffer (new (put (fun _ => none) 1 (some ⟨1, ⟨0, 0, 200, 200⟩, fun _ _ => 7⟩)) 0).1
      (new (put (fun _ => none) 1 (some ⟨1, ⟨0, 0, 200, 200⟩, fun _ _ => 7⟩)) 0).2 (.buffer 1) 0) = .ok (s1, h1) ∧
    write s1 h1 ⟨0, 0⟩ (fun _ _ => 8) = .ok (s2, h2) ∧ h1 1 = some o ∧ h2 1 = some o' ∧
    o.colourAt 100 100 = 7 ∧ o'.colourAt 100 100 = 0 ∧ o'.colourAt 10 10 = 8 :=
  ⟨_, _, _, _, _, _, rfl, rfl, rfl, rfl, by decide, by decide, by decide⟩

/-- **C70**, partial. If the surface has already grown over the extent of the buffer, and nothing is stored outside of it,
painting a tile leaves the rest of the picture alone. -/
theorem handed_buffer_kept_partial {s s' : Surface} {h h' : Heap} {t : TileIndex} {c : Int → Int → Nat} {o o' : Obj}
    (hp : Proper s.extentRect) (hb : h s.buffer = some o) (hs : Sub o.extent s.extentRect)
    (hz : ∀ x y, ¬ Has o.extent x y → o.stored x y = 0) (hw : write s h t c = .ok (s', h'))
    (hb' : h' s'.buffer = some o') (x y : Int) :
    o'.colourAt x y = if x / 64 = t.x ∧ y / 64 = t.y then c x y else o.colourAt x y := by
  obtain ⟨o1, w1, rfl, w3, -⟩ := write_eq hw
  rw [hb] at w1
  cases w1
  rw [show h' s.buffer = some o' from hb'] at w3
  cases w3
  have hq : Proper ⟨t.x * 64, t.y * 64, 64, 64⟩ := by unfold Proper; dsimp only; omega
  obtain ⟨b1, b2, -⟩ := has_boundingBox hp hq
  unfold Obj.colourAt
  dsimp only [paint]
  by_cases q : x / 64 = t.x ∧ y / 64 = t.y
  · rw [if_pos q, if_pos q, if_pos (b2 x y ((has_tile t x y).mpr q))]
  · rw [if_neg q, if_neg q]
    by_cases q2 : Has o.extent x y
    · rw [if_pos q2, if_pos (b1 x y (hs x y q2))]
    · rw [if_neg q2, hz x y q2, ite_self]

/-! ### C71 -/

/-- **C71 fails**: the surface takes a reference of its own to the buffer handed to it and gives back that one only. The
reference that the caller hands over (transfer full) is never released. -/
theorem handed_buffer_leaks {s s1 : Surface} {h h1 h2 : Heap} {i : Nat} {o : Obj} (hi : i ≠ s.buffer)
    (ho : h i = some o) (hr : 1 ≤ o.refs) (h1' : setBuffer s h (.buffer i) 0 = .ok (s1, h1))
    (h2' : destroy s1 h1 = .ok h2) : ∃ o', h2 i = some o' ∧ o'.refs = o.refs := by
  unfold setBuffer at h1'
  have e : ¬ (Arg.buffer i = .buffer s.buffer) := fun q => hi (Arg.buffer.inj q)
  rw [if_neg e] at h1'
  obtain ⟨ha, hu, h1'⟩ := bind_ok' h1'
  obtain ⟨hb, hf, h1'⟩ := bind_ok' h1'
  have e1 := Except.ok.inj h1'
  have e2 : s1 = ⟨s.extentRect, i⟩ := (congrArg Prod.fst e1).symm
  have e3 : h1 = hb := (congrArg Prod.snd e1).symm
  subst e2 e3
  have k : ha i = some o := by
    unfold unref at hu
    cases hx : h s.buffer with
    | none => rw [hx] at hu; cases hu
    | some x =>
      rw [hx] at hu
      rw [← Except.ok.inj hu]
      unfold put
      rw [if_neg hi]
      exact ho
  unfold ref at hf
  rw [k] at hf
  have k2 : h1 i = some { o with refs := o.refs + 1 } := by
    rw [← Except.ok.inj hf]
    exact if_pos rfl
  unfold destroy unref at h2'
  dsimp only at h2'
  rw [k2] at h2'
  rw [← Except.ok.inj h2']
  refine ⟨o, ?_, rfl⟩
  unfold put
  rw [if_pos rfl, if_neg (by dsimp only; omega)]
  rfl

/-- **C71 fails**: an object that is not a buffer is refused after the old buffer was released: the next use of a new
surface is a use after free. -/
theorem refused_object_dangles (h : Heap) (fresh : Nat) : ∃ s1 h1,
    setBuffer (new h fresh).1 (new h fresh).2 .other 0 = .ok (s1, h1) ∧
      ∀ t c, (∃ r, tileBox t = .ok r) → write s1 h1 t c = .error .useAfterFree := by
  refine ⟨⟨Rect.zero, fresh⟩, put (new h fresh).2 fresh none, ?_, ?_⟩
  · unfold setBuffer
    rw [if_neg (by simp)]
    have : unref (new h fresh).2 (new h fresh).1.buffer = .ok (put (new h fresh).2 fresh none) := by
      unfold unref new
      simp [put]
    rw [this]
    rfl
  · rintro t c ⟨r, hr⟩
    have e : put (new h fresh).2 fresh none fresh = none := if_pos rfl
    unfold write requestStart setExtent
    rw [hr]
    simp only [bind, Except.bind, Bool.false_eq_true, if_false]
    rw [e]

/-- Buffers that the surface makes itself are released with it, and replacing them releases them. -/
theorem own_buffer_released (h : Heap) (fresh : Nat) :
    ∃ h2, destroy (new h fresh).1 (new h fresh).2 = .ok h2 ∧ h2 fresh = none ∧ ∀ i, i ≠ fresh → h2 i = h i := by
  refine ⟨put (new h fresh).2 fresh none, ?_, if_pos rfl, fun i hi => ?_⟩
  · unfold destroy unref new
    simp [put]
  · unfold put new
    dsimp only [put]
    rw [if_neg hi, if_neg hi]

end Verif.Gegl
