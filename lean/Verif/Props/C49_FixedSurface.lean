import Verif.Lemmas.FixedSurface
import Mathlib.Data.List.Induction

/-!
# C49, C50, C51: lifetime, tile memory and initial contents of surfaces
-/

namespace Verif.Ref

/-- References held after a history that began with the creator's one. -/
def owners (cs : List Call) : Int := 1 + cs.count .ref - cs.count .unref

/-- Every call of the history is made by somebody who still holds a reference, and there are never
more references than an `int` can count. -/
def Legal (cs : List Call) : Prop :=
  ∀ p q, cs = p ++ q → (q ≠ [] → 0 < owners p) ∧ owners p ≤ intMax

theorem owners_append_one (cs : List Call) (c : Call) :
    owners (cs ++ [c]) = owners cs + (if c = .ref then 1 else -1) := by
  unfold owners
  cases c <;> simp [List.count_append] <;> omega

theorem legal_init {cs : List Call} {c : Call} (h : Legal (cs ++ [c])) : Legal cs := by
  intro p q hpq
  have h1 := h p (q ++ [c]) (by rw [hpq, List.append_assoc])
  exact ⟨fun _ => h1.1 (by simp), h1.2⟩

theorem run_legal (cs : List Call) (h : Legal cs) :
    run init cs = .ok ⟨owners cs, if owners cs = 0 then 1 else 0⟩ := by
  induction cs using List.reverseRecOn with
  | nil => rfl
  | append_singleton cs c ih =>
    have hp := h cs [c] rfl
    have hpos := hp.1 (by simp)
    have hle := (h (cs ++ [c]) [] (by simp)).2
    have ih := ih (legal_init h)
    unfold run at *
    rw [List.foldlM_append, ih]
    show List.foldlM call _ [c] = _
    rw [List.foldlM_cons]
    rw [owners_append_one] at *
    have hne : owners cs ≠ 0 := by omega
    simp only [if_neg hne]
    have hm := hp.2
    cases c with
    | ref =>
      simp only [if_true] at hle ⊢
      unfold call ref chk
      dsimp only
      rw [if_neg (by simp), if_pos ⟨by unfold intMin; omega, hle⟩, if_neg (by omega)]
      rfl
    | unref =>
      have e : (if Call.unref = Call.ref then (1:Int) else -1) = -1 := by decide
      rw [e]
      unfold call unref chk
      dsimp only
      rw [if_neg (by simp), if_pos ⟨by unfold intMin; omega, by omega⟩]
      simp only [bind, Except.bind, pure, Except.pure, List.foldlM_nil]
      by_cases h0 : owners cs - 1 = 0
      · have h0' : owners cs + -1 = 0 := by omega
        simp [h0, h0']
      · have h0' : ¬ owners cs + -1 = 0 := by omega
        simp only [if_neg h0, if_neg h0', Int.sub_eq_add_neg]

/-- **C49** After any legal history the destructor has run once if the last reference is gone and
never otherwise; no call of the history touches freed memory. -/
theorem destroyed_with_the_last_reference (cs : List Call) (h : Legal cs) :
    ∃ o, run init cs = .ok o ∧
      (o.destroyed = 1 ↔ owners cs = 0) ∧ (o.destroyed = 0 ↔ 0 < owners cs) := by
  refine ⟨_, run_legal cs h, ?_, ?_⟩
  · dsimp only
    split <;> simp_all
  · dsimp only
    have : 0 ≤ owners cs := by
      cases cs using List.reverseRecOn with
      | nil => decide
      | append_singleton cs c =>
        have := (h cs [c] rfl).1 (by simp)
        rw [owners_append_one]
        split <;> omega
    split
    · rename_i h0
      simp [h0]
    · constructor
      · intro _; omega
      · intro _; rfl

theorem foldlM_error {o : Obj} (h : o.destroyed ≠ 0) (cs : List Call) (hc : cs ≠ []) :
    run o cs = .error .useAfterFree := by
  cases cs with
  | nil => exact absurd rfl hc
  | cons c cs =>
    unfold run
    rw [List.foldlM_cons]
    cases c <;> unfold call <;> simp only [ref, unref] <;> rw [if_pos h] <;> rfl

/-- **C49** The destructor never runs twice, whatever the history. -/
theorem never_destroyed_twice (cs : List Call) (o : Obj) (h : run init cs = .ok o) :
    o.destroyed ≤ 1 := by
  have key : ∀ (cs : List Call) (o₀ o : Obj), o₀.destroyed ≤ 1 → run o₀ cs = .ok o →
      o.destroyed ≤ 1 := by
    intro cs
    induction cs with
    | nil =>
      intro o₀ o h₀ h
      have : o₀ = o := by simpa [run, pure, Except.pure] using h
      exact this ▸ h₀
    | cons c cs ih =>
      intro o₀ o h₀ h
      by_cases hd : o₀.destroyed = 0
      · unfold run at h
        rw [List.foldlM_cons] at h
        cases h1 : call o₀ c with
        | error e => rw [h1] at h; exact absurd h (by simp [bind, Except.bind])
        | ok o₁ =>
          rw [h1] at h
          refine ih o₁ o ?_ h
          cases c with
          | ref =>
            simp only [call, ref] at h1
            rw [if_neg (by simpa using hd)] at h1
            cases hk : chk (o₀.refcount + 1) with
            | error e => rw [hk] at h1; exact absurd h1 (by simp [bind, Except.bind])
            | ok n =>
              rw [hk] at h1
              simp [bind, Except.bind, pure, Except.pure] at h1
              rw [← h1]; exact h₀
          | unref =>
            simp only [call, unref] at h1
            rw [if_neg (by simpa using hd)] at h1
            cases hk : chk (o₀.refcount - 1) with
            | error e => rw [hk] at h1; exact absurd h1 (by simp [bind, Except.bind])
            | ok n =>
              rw [hk] at h1
              simp only [bind, Except.bind, pure, Except.pure] at h1
              split at h1 <;> simp at h1 <;> rw [← h1] <;> simp [hd]
      · rw [foldlM_error hd (c :: cs) (by simp)] at h
        exact absurd h (by simp)
  exact key cs init o (by decide) h

/-- **C49** Any use after the last reference is gone is a use after free: releasing once too often
is never harmless. -/
theorem no_use_after_destruction (cs more : List Call) (h : Legal cs) (h0 : owners cs = 0)
    (hm : more ≠ []) : run init (cs ++ more) = .error .useAfterFree := by
  unfold run
  rw [List.foldlM_append]
  have := run_legal cs h
  unfold run at this
  rw [this]
  exact foldlM_error (by simp [h0]) more hm

example : run init [.ref, .unref, .ref, .ref, .unref, .unref] = .ok ⟨1, 0⟩ := by decide
example : run init [.ref, .unref, .ref, .ref, .unref, .unref, .unref] = .ok ⟨0, 1⟩ := by decide
example : Legal [.ref, .unref, .unref] := by
  intro p q h
  have hl : p.length ≤ 3 := by
    have := congrArg List.length h
    simp at this; omega
  match p, h, hl with
  | [], _, _ => exact ⟨fun _ => by decide, by decide⟩
  | [a], h, _ => simp at h; obtain ⟨rfl, _⟩ := h; exact ⟨fun _ => by decide, by decide⟩
  | [a, b], h, _ => simp at h; obtain ⟨rfl, rfl, _⟩ := h; exact ⟨fun _ => by decide, by decide⟩
  | [a, b, c], h, _ =>
    simp at h; obtain ⟨rfl, rfl, rfl, rfl⟩ := h
    exact ⟨fun h => absurd rfl h, by decide⟩

end Verif.Ref

namespace Verif.Fixed

/-- **C50** A surface of reasonable size can be created, and any sequence of tile requests on it,
for tiles inside and outside of the image, by clients that stay within their tile, behaves as on an
ideal canvas: nothing faults, every client reads what was last written to its tile, tiles outside
the image always read zero and swallow what is written to them. -/
theorem fixed_surface_is_a_canvas (w h : Int) (hw : 0 < w) (hw2 : w ≤ 2 ^ 24) (hh : 0 < h)
    (hh2 : h ≤ 2 ^ 24) (ha : w * h < 2 ^ 29) (rs : List (TileIndex × Client))
    (hc : ∀ r ∈ rs, r.2.InTile) :
    ∃ s s', new ⟨true, true, true⟩ w h = .ok (some s) ∧
      requests s rs = .ok ((canvasRequests w h (freshCanvas w h) rs).1, s') := by
  obtain ⟨s, hs, hh, rfl, rfl⟩ := new_holds hw hw2 hh hh2 ha
  obtain ⟨s', e, _⟩ := requests_holds rs hh hc
  exact ⟨s, s', hs, e⟩

/-- **C50** A tile of the image is handed out as 64*64*4 cells inside the block, and two different
tiles share no cell. A tile outside the image is the scratch tile. -/
theorem tiles_in_bounds_and_disjoint (w h : Int) (s : Surface) (hw2 : w ≤ 2 ^ 24) (hh2 : h ≤ 2 ^ 24)
    (ha : w * h < 2 ^ 29) (hs : new ⟨true, true, true⟩ w h = .ok (some s)) :
    (∀ t, InImage w h t → ∃ o, start s t = .block o ∧ o + 64 * 64 * 4 ≤ s.bufferCells) ∧
    (∀ t, ¬ InImage w h t → start s t = .scratch) ∧
    (∀ t u o p, start s t = .block o → start s u = .block p → t ≠ u →
      o + 64 * 64 * 4 ≤ p ∨ p + 64 * 64 * 4 ≤ o) := by
  have hw : 0 < w := by
    by_contra h0
    unfold new at hs
    rw [if_pos h0] at hs
    exact absurd hs (by simp [bind, Except.bind, throw, throwThe, MonadExceptOf.throw])
  have hh : 0 < h := by
    by_contra h0
    unfold new at hs
    rw [if_neg (by simpa using hw), if_pos h0] at hs
    exact absurd hs (by simp [bind, Except.bind, pure, Except.pure, throw, throwThe, MonadExceptOf.throw])
  obtain ⟨s1, e1, hwf, hww, hhh⟩ := new_holds hw hw2 hh hh2 ha
  rw [hs] at e1
  obtain rfl : s = s1 := by simpa using e1
  have hi := fun t => outside_iff hwf.wf t
  rw [hww, hhh] at hi
  refine ⟨?_, ?_, ?_⟩
  · intro t ht
    exact ⟨_, start_inside hwf.wf ((hi t).mpr ht)⟩
  · intro t ht
    cases ho : outside s t with
    | true => exact start_outside ho
    | false => exact absurd ((hi t).mp ho) ht
  · intro t u o p ht hu htu
    have inside_of : ∀ {v q}, start s v = .block q → outside s v = false ∧ q = off s v := by
      intro v q hv
      cases ho : outside s v with
      | true => rw [start_outside ho] at hv; exact absurd hv (by simp)
      | false =>
        have := (start_inside hwf.wf ho).1
        rw [this] at hv
        exact ⟨rfl, by simpa using hv.symm⟩
    obtain ⟨t1, rfl⟩ := inside_of ht
    obtain ⟨u1, rfl⟩ := inside_of hu
    by_contra hcon
    have hcon := not_or.mp hcon
    rcases Nat.le_total (off s t) (off s u) with hle | hle
    · exact htu (off_inj t1 u1 (i := off s u - off s t) (j := 0)
        (by unfold tileCells; omega) (by decide) (by omega)).1
    · exact htu (off_inj t1 u1 (i := 0) (j := off s t - off s u)
        (by decide) (by unfold tileCells; omega) (by omega)).1

/-- **C51 (negation)** No pixel of a new fixed surface is valid: every channel of every pixel, alpha
included, is 65535, almost twice the value 2^15 that means 1.0. -/
theorem fresh_pixels_are_invalid (m : Memory) (w h : Int) (s : Surface)
    (hs : new m w h = .ok (some s)) (k : Nat) : s.buffer k = 65535 ∧ ¬ s.buffer k ≤ 2 ^ 15 := by
  have : s.buffer k = 65535 := by
    unfold new at hs
    simp only [bind, Except.bind, pure, Except.pure, throw, throwThe, MonadExceptOf.throw] at hs
    repeat' split at hs
    all_goals simp at hs
    all_goals rw [← hs]
    all_goals rfl
  refine ⟨this, ?_⟩
  rw [this]; decide

/-- The same seen by a client: its first read of any cell of the image gives 65535. -/
theorem fresh_tile_reads (w h : Int) (hw : 0 < w) (hw2 : w ≤ 2 ^ 24) (hh : 0 < h)
    (hh2 : h ≤ 2 ^ 24) (ha : w * h < 2 ^ 29) (t : TileIndex) (ht : InImage w h t) (i : Nat)
    (hi : i < tileCells) :
    ∃ s s', new ⟨true, true, true⟩ w h = .ok (some s) ∧
      requests s [(t, .read i fun _ => .done)] = .ok ([[65535]], s') := by
  obtain ⟨s, s', e1, e2⟩ := fixed_surface_is_a_canvas w h hw hw2 hh hh2 ha
    [(t, .read i fun _ => .done)] (by
      intro r hr
      simp only [List.mem_singleton] at hr
      subst hr
      exact ⟨hi, fun _ => trivial⟩)
  refine ⟨s, s', e1, e2.trans ?_⟩
  simp [canvasRequests, canvasRequest, Client.onTile, freshCanvas, ht]

/-- Creating a surface of 2^29 pixels or more (4 GiB) is undefined behaviour: the size check
multiplies `width*height*4` as `int`. -/
theorem large_surface_overflows (w h : Int) (hw : 0 < w) (hw2 : w ≤ 2 ^ 24) (hh : 0 < h)
    (hh2 : h ≤ 2 ^ 24) (ha : 2 ^ 29 ≤ w * h) (hb : w * h ≤ intMax) :
    new ⟨true, true, true⟩ w h = .error .intOverflow := by
  obtain ⟨p1, p2, p3, p4, p5⟩ := area_bound hw hh
  have q1 : ceilTiles w ≤ 2 ^ 24 := by unfold ceilTiles; omega
  have q2 : ceilTiles h ≤ 2 ^ 24 := by unfold ceilTiles; omega
  have r1 : 64 * ceilTiles w ≥ w := by unfold ceilTiles; omega
  have r2 : 64 * ceilTiles h ≥ h := by unfold ceilTiles; omega
  unfold intMax at hb
  unfold new
  rw [if_neg (by simpa using hw), if_neg (by simpa using hh), if_neg (by simp)]
  rw [tilesFor_small hw hw2, tilesFor_small hh hh2]
  dsimp only
  have c1 : chk (ceilTiles w * ceilTiles h) = .ok (ceilTiles w * ceilTiles h) :=
    chk_ok (by unfold intMin; omega) (by unfold intMax; omega)
  have c2 : chk (tilePixels * ceilTiles w) = .ok (64 * ceilTiles w) :=
    chk_ok (by unfold intMin tilePixels; omega) (by unfold intMax tilePixels; omega)
  have c3 : chk (tilePixels * ceilTiles h) = .ok (64 * ceilTiles h) :=
    chk_ok (by unfold intMin tilePixels; omega) (by unfold intMax tilePixels; omega)
  have c4 : chk (w * h) = .ok (w * h) :=
    chk_ok (by unfold intMin; omega) (by unfold intMax; omega)
  have c5 : chk (w * h * 4) = .error .intOverflow := by
    unfold chk
    rw [if_neg (by unfold intMax; omega)]
  rw [c1]
  simp only [pure, bind, Except.pure, Except.bind, c2, c3, c4, c5]
  rw [if_neg (by simpa using r1), if_neg (by simpa using r2)]

/-- A 23171 x 23171 surface, for instance. -/
example : new ⟨true, true, true⟩ 23171 23171 = .error .intOverflow :=
  large_surface_overflows _ _ (by decide) (by decide) (by decide) (by decide) (by decide) (by decide)

/-- The size in tiles is computed in single precision: a side of 2^24+1 pixels is rounded down and
the constructor aborts. -/
theorem long_side_aborts : new ⟨true, true, true⟩ 16777217 1 = .error .assertFail := by
  have h : (match new ⟨true, true, true⟩ 16777217 1 with
      | .error .assertFail => true
      | _ => false) = true := by decide +kernel
  split at h
  · assumption
  · exact absurd h (by decide)

/-- When the block cannot be allocated the constructor reports it by returning NULL; when one of
the two small blocks cannot be allocated it dereferences NULL. -/
theorem out_of_memory :
    (∃ r, new ⟨true, false, true⟩ 100 100 = .ok r ∧ r.isNone) ∧
    (∃ e, new ⟨false, true, true⟩ 100 100 = .error e ∧ e = .nullDeref) ∧
    (∃ e, new ⟨true, true, false⟩ 100 100 = .error e ∧ e = .nullDeref) := by
  refine ⟨⟨none, rfl, rfl⟩, ⟨_, rfl, rfl⟩, ⟨_, rfl, rfl⟩⟩

/-- A client that reads back what it wrote, in and outside of a 100 x 100 image. -/
def probe : Client := .write 5 77 (.read 5 fun v => .write 6 (v + 1) (.read 6 fun _ => .done))

def look : Client := .read 6 fun _ => .done

def observed (w h : Int) (rs : List (TileIndex × Client)) : Option (List (List Nat)) :=
  match new ⟨true, true, true⟩ w h with
  | .ok (some s) => match requests s rs with
    | .ok (l, _) => some l
    | .error _ => none
  | _ => none

example : observed 100 100 [(⟨1, 1⟩, probe), (⟨2, 0⟩, probe), (⟨-1, 0⟩, look), (⟨0, 1⟩, look),
    (⟨1, 1⟩, look), (⟨2, 0⟩, look)]
    = some [[77, 78], [77, 78], [0], [65535], [78], [0]] := by decide +kernel

end Verif.Fixed
