import Verif.Lemmas.EngineSession

/-!
# Induction over a session that uses one encoding of the colours

As `Invariant.ofBlind`, for what depends on whether the colours of the surface are linear.
-/

namespace Verif.Engine
open Verif.Mask Verif.Color Verif.Spectral Verif.Map

section
variable {K R σ : Type} [Field K] [LinearOrder K] [IsStrictOrderedRing K] [FloorRing K]
variable {e : Env K R σ} {I : Load.Brush K → σ → Prop} {J : Load.Brush K → (Nat → K) → σ → Prop} {lin : Bool}

theorem strokeEvent_light (hv : ∀ s surf i, I s surf → J s (settingValues s i) surf)
    (hd : ∀ b surf p, J b.settings b.vals surf → drawDab e b surf lin = .ok p → I b.settings p.2.2)
    {ev : Event K} (he : ev.linear = lin) {fuel : Nat} {b : Brush K R} {surf : σ} (hi : I b.settings surf)
    {r : Bool × Brush K R × σ} (h : strokeEvent e fuel b surf ev = .ok r) : I r.2.1.settings r.2.2 := by
  rcases strokeEvent_cases h with ⟨-, h⟩ | ⟨-, -, b', h1, h⟩ | ⟨-, -, h⟩
  · rw [h, skipStage_eq]; exact hi
  · rw [h]
    obtain ⟨bk, -, e1⟩ := startOver_eq h1
    simp only
    rw [e1, cursor_eq, skipStage_eq]
    exact hi
  · have hb : ∀ x y dt, (cursor e (skipStage e b ev.x ev.y ev.dtime).1 x y dt).2.2.settings = b.settings := by
      intro x y dt
      rw [cursor_eq, skipStage_eq]
    obtain ⟨l, b1, hl, hu, -, h2, h3⟩ := moveTo_eq h
    have k := (dabLoop_induct (fun l : Loop K R σ => I l.b.settings l.surf) (fun l l' _ hst hp => by
      obtain ⟨-, b1, p, b2, hu, hdr, h2, e1⟩ := dabStep_eq hst
      rw [e1]
      simp only
      rw [countDabs_st]
      simp only
      rw [h2]
      simp only
      have j : J b1.settings b1.vals l.surf := by rw [update_eq hu]; exact hv _ _ _ hp
      have q := hd { b1 with st := { b1.st with flip := b1.st.flip * -1 } } l.surf p j (by rw [← he]; exact hdr)
      have q2 : p.2.1.settings = b1.settings := (drawDab_frame hdr).settings
      rw [q2]
      exact q) _ _ _ hl (by simp only; rw [countDabs_st, hb]; exact hi)).1
    rw [h2, h3, splitStroke_eq]
    simp only
    rw [update_eq hu]
    exact k

theorem sanitise_linear {m : Motion K} {ev : Event K} (h : sanitise e m = .ok ev) : ev.linear = m.linear := by
  unfold sanitise at h
  obtain ⟨t, ht, h⟩ := bind_ok h
  dsimp only at h
  split at h
  · split at h
    · rw [← Except.ok.inj h]
    · cases h
  · rw [← Except.ok.inj h]

/-- What the settings and their values say about a dab, in a session that uses one encoding of the colours. -/
theorem session_light (hv : ∀ s surf i, I s surf → J s (settingValues s i) surf)
    (hd : ∀ b surf p, J b.settings b.vals surf → drawDab e b surf lin = .ok p → I b.settings p.2.2)
    {fuel : Nat} (ms : List (Motion K)) : ∀ {b : Brush K R} {surf : σ}, (∀ m ∈ ms, m.linear = lin) → I b.settings surf →
    ∀ {r : Brush K R × σ}, strokes e fuel b surf ms = .ok r → I r.1.settings r.2 := by
  induction ms with
  | nil =>
    intro b surf _ hi r h
    rw [← Except.ok.inj h]
    exact hi
  | cons m ms ih =>
    intro b surf hm hi r h
    unfold strokes at h
    obtain ⟨r1, h1, h⟩ := bind_ok h
    have k : I r1.2.1.settings r1.2.2 := by
      unfold strokeTo at h1
      obtain ⟨ev, hev, h1⟩ := bind_ok h1
      have he : ev.linear = lin := (sanitise_linear hev).trans (hm m List.mem_cons_self)
      split_ifs at h1
      · obtain ⟨inner, hin, h1⟩ := bind_ok h1
        obtain ⟨r2, h2, h1⟩ := bind_ok h1
        have k2 := strokeEvent_light hv hd ((sanitise_linear hin).trans he) hi h2
        exact strokeEvent_light hv hd (ev := { ev with dtime := 1 / 10000 }) he k2 h1
      · exact strokeEvent_light hv hd he hi h1
    exact ih (fun m hm' => hm m (List.mem_cons_of_mem _ hm')) k h

end

end Verif.Engine
