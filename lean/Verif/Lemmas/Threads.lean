import Mathlib.Data.Set.Basic
import Verif.Model.Threads
import Verif.Lemmas.QueueTidy

/-! Helper lemmas for threads that process tiles. -/

namespace Verif.Threads

variable {β T : Type} {size : Int} {k : DabKind β T}

theorem set_same (m : Shared β T) (c : Cell) (v : Val β T c) : set m c v c = v :=
  Function.update_self ..

theorem set_ne (m : Shared β T) {c c' : Cell} (v : Val β T c) (h : c' ≠ c) : set m c v c' = m c' :=
  Function.update_of_ne h ..

/-- A step changes only the cells it writes. -/
theorem step_outside {th th1 : Thread} {m m1 : Shared β T} (h : step size k th m = .ok (th1, m1)) :
    ∀ c, (c, true) ∉ accesses size th.pc → m1 c = m c := by
  intro c hc
  obtain ⟨pc, todo⟩ := th
  cases pc <;> simp only [step] at h <;> simp only [accesses] at hc <;>
    (repeat' split at h) <;> first
    | (cases h; rfl)
    | (cases h; done)
    | (cases h; refine set_ne _ _ ?_; rintro rfl; simp at hc)

theorem set_agree {m m' : Shared β T} (c0 : Cell) (v : Val β T c0) :
    ∀ c, m' c = m c → set m' c0 v c = set m c0 v c := by
  intro c hc
  by_cases h : c = c0
  · subst h; rw [set_same, set_same]
  · rw [set_ne _ _ h, set_ne _ _ h, hc]

/-- A step depends only on the cells it accesses. -/
theorem step_frame {th th1 : Thread} {m m1 m' : Shared β T} (h : step size k th m = .ok (th1, m1))
    (ha : ∀ a ∈ accesses size th.pc, m' a.1 = m a.1) :
    ∃ m1', step size k th m' = .ok (th1, m1') ∧ ∀ c, m' c = m c → m1' c = m1 c := by
  obtain ⟨pc, todo⟩ := th
  have ha2 : ∀ c b, (c, b) ∈ accesses size pc → m' c = m c := fun c b hc => ha (c, b) hc
  cases pc with
  | idle =>
    simp only [step] at h ⊢
    cases todo with
    | nil => cases h; exact ⟨m', rfl, fun c hc => hc⟩
    | cons t ts => cases h; exact ⟨m', rfl, fun c hc => hc⟩
  | pop t =>
    simp only [step] at h ⊢
    by_cases hi : inside size t = true
    · rw [if_pos hi] at h ⊢
      have e : m' (.slot t) = m (.slot t) := ha2 _ false (by simp [accesses, hi])
      rw [e]
      cases hx : m (.slot t) with
      | none => simp only [hx] at h; cases h; exact ⟨m', rfl, fun c hc => hc⟩
      | some a => simp only [hx] at h; cases h; exact ⟨m', rfl, fun c hc => hc⟩
    · rw [if_neg hi] at h ⊢
      cases h; exact ⟨m', rfl, fun c hc => hc⟩
  | head t f =>
    simp only [step] at h ⊢
    have e : m' (.fifo f) = m (.fifo f) := ha2 _ false (by simp [accesses])
    rw [e]
    cases hx : m (.fifo f) with
    | none => simp only [hx] at h; cases h
    | some hdr =>
      simp only [hx] at h
      cases hf : hdr.first with
      | none => simp only [hf] at h ⊢; cases h; exact ⟨m', rfl, fun c hc => hc⟩
      | some a => simp only [hf] at h ⊢; cases h; exact ⟨m', rfl, fun c hc => hc⟩
  | advance t f a =>
    simp only [step] at h ⊢
    have e : m' (.fifo f) = m (.fifo f) := ha2 _ true (by simp [accesses])
    have e2 : m' (.item a) = m (.item a) := ha2 _ false (by simp [accesses])
    rw [e, e2]
    cases hx : m (.item a) with
    | none => simp only [hx] at h; cases h
    | some it =>
      cases hy : m (.fifo f) with
      | none => simp only [hx, hy] at h; cases h
      | some hdr => simp only [hx, hy] at h; cases h; exact ⟨_, rfl, set_agree _ _⟩
  | last t f a =>
    simp only [step] at h ⊢
    have e : m' (.fifo f) = m (.fifo f) := ha2 _ true (by simp [accesses])
    rw [e]
    cases hx : m (.fifo f) with
    | none => simp only [hx] at h; cases h
    | some hdr => simp only [hx] at h; cases h; exact ⟨_, rfl, set_agree _ _⟩
  | data t f a =>
    simp only [step] at h ⊢
    have e : m' (.item a) = m (.item a) := ha2 _ false (by simp [accesses])
    rw [e]
    cases hx : m (.item a) with
    | none => simp only [hx] at h; cases h
    | some it => simp only [hx] at h; cases h; exact ⟨m', rfl, fun c hc => hc⟩
  | freeItem t f a o =>
    simp only [step] at h ⊢
    have e : m' (.item a) = m (.item a) := ha2 _ true (by simp [accesses])
    rw [e]
    cases hx : m (.item a) with
    | none => simp only [hx] at h; cases h
    | some it => simp only [hx] at h; cases h; exact ⟨_, rfl, set_agree _ _⟩
  | count t f o =>
    simp only [step] at h ⊢
    have e : m' (.fifo f) = m (.fifo f) := ha2 _ true (by simp [accesses])
    rw [e]
    cases hx : m (.fifo f) with
    | none => simp only [hx] at h; cases h
    | some hdr => simp only [hx] at h; cases h; exact ⟨_, rfl, set_agree _ _⟩
  | apply t o =>
    simp only [step] at h ⊢
    have e : m' (.op o) = m (.op o) := ha2 _ false (by simp [accesses])
    have e2 : m' (.tile t) = m (.tile t) := ha2 _ true (by simp [accesses])
    rw [e, e2]
    cases hx : m (.op o) with
    | none => simp only [hx] at h; cases h
    | some d => simp only [hx] at h; cases h; exact ⟨_, rfl, set_agree _ _⟩
  | freeOp t o =>
    simp only [step] at h ⊢
    have e : m' (.op o) = m (.op o) := ha2 _ true (by simp [accesses])
    rw [e]
    cases hx : m (.op o) with
    | none => simp only [hx] at h; cases h
    | some d => simp only [hx] at h; cases h; exact ⟨_, rfl, set_agree _ _⟩
  | release t f =>
    simp only [step] at h ⊢
    have e : m' (.fifo f) = m (.fifo f) := ha2 _ true (by simp [accesses])
    rw [e]
    cases hx : m (.fifo f) with
    | none => simp only [hx] at h; cases h
    | some hdr =>
      simp only [hx] at h
      by_cases hf : hdr.first = none
      · simp only [if_pos hf] at h ⊢; cases h; exact ⟨_, rfl, set_agree _ _⟩
      · simp only [if_neg hf] at h; cases h
  | clear t =>
    simp only [step] at h ⊢
    cases h; exact ⟨_, rfl, set_agree _ _⟩

/-! ### A thread alone -/

/-- `n` steps of a thread with nobody else running. -/
def solo (size : Int) (k : DabKind β T) : Nat → Thread → Shared β T → Except Fault (Thread × Shared β T)
  | 0, th, m => .ok (th, m)
  | n + 1, th, m => do
    let (th, m) ← solo size k n th m
    step size k th m

/-- The next step stays within `R`. -/
def Own (size : Int) (R : Set Cell) (th : Thread) : Prop := ∀ a ∈ accesses size th.pc, a.1 ∈ R

/-- Alone, the thread never faults and stays within `R`. -/
def Clean (size : Int) (k : DabKind β T) (R : Set Cell) (th : Thread) (m : Shared β T) : Prop :=
  ∀ n, ∃ th' m', solo size k n th m = .ok (th', m') ∧ Own size R th'

/-- Where the team is, relative to the threads running alone: thread `i` has taken `n i` steps. -/
structure Split (size : Int) (k : DabKind β T) (R : Nat → Set Cell) (ths0 : Team) (m0 : Shared β T)
    (n : Nat → Nat) (ths : Team) (m : Shared β T) : Prop where
  own : ∀ i, ∃ mi, solo size k (n i) (ths0 i) m0 = .ok (ths i, mi) ∧ ∀ c ∈ R i, m c = mi c
  rest : ∀ c, (∀ i, c ∉ R i) → m c = m0 c

theorem exec_split {R : Nat → Set Cell} (hR : ∀ i j c, c ∈ R i → c ∈ R j → i = j) {ths0 : Team}
    {m0 : Shared β T} (hc : ∀ i, Clean size k (R i) (ths0 i) m0) :
    ∀ (sched : List Nat) (n : Nat → Nat) (ths : Team) (m : Shared β T),
      Split size k R ths0 m0 n ths m →
      ∃ tr ths' m', exec size k sched ths m = .ok (tr, ths', m') ∧
        Split size k R ths0 m0 (fun i => n i + sched.count i) ths' m' ∧
        ∀ x ∈ tr, x.2.1 ∈ R x.1
  | [], n, ths, m, h => ⟨[], ths, m, rfl, by simpa using h, by simp⟩
  | i :: is, n, ths, m, h => by
    obtain ⟨mi, hsolo, hagree⟩ := h.own i
    obtain ⟨th1, mi1, hs1, hown1⟩ := hc i (n i + 1)
    obtain ⟨th0', mi', hs0, hown0⟩ := hc i (n i)
    rw [hsolo] at hs0
    cases hs0
    have hstep : step size k (ths i) mi = .ok (th1, mi1) := by
      have := hs1
      simp only [solo, hsolo, bind, Except.bind] at this
      exact this
    obtain ⟨m1, hm1, hkeep⟩ := step_frame hstep (m' := m) (fun a ha => hagree _ (hown0 a ha))
    have hout := step_outside hm1
    have hout' := step_outside hstep
    have hsp : Split size k R ths0 m0 (fun j => n j + if j = i then 1 else 0)
        (fun j => if j = i then th1 else ths j) m1 := by
      refine ⟨fun j => ?_, fun c hcn => ?_⟩
      · by_cases hj : j = i
        · subst hj
          exact ⟨mi1, by simpa using hs1, fun c hcR => hkeep c (hagree c hcR)⟩
        · obtain ⟨mj, h1, h2⟩ := h.own j
          refine ⟨mj, by simpa [hj] using h1, fun c hcR => ?_⟩
          rw [hout c (fun hm => hj (hR j i c hcR (hown0 _ hm)))]
          exact h2 c hcR
      · rw [hout c (fun hm => hcn i (hown0 _ hm))]
        exact h.rest c hcn
    obtain ⟨tr, ths', m', he, hsp', htr⟩ := exec_split hR hc is _ _ _ hsp
    refine ⟨(accesses size (ths i).pc).map (fun a => (i, a)) ++ tr, ths', m', ?_, ?_, ?_⟩
    · simp only [exec, hm1, bind, Except.bind, he]; rfl
    · have : (fun j => n j + (if j = i then 1 else 0) + is.count j)
          = fun j => n j + (i :: is).count j := by
        funext j
        rw [List.count_cons]
        by_cases hj : j = i
        · subst hj; simp; omega
        · have : ¬ i = j := fun h => hj h.symm
          simp [hj, this]
      rw [← this]; exact hsp'
    · intro x hx
      rcases List.mem_append.mp hx with hx | hx
      · obtain ⟨a, ha, rfl⟩ := List.mem_map.mp hx
        exact hown0 a ha
      · exact htr x hx

/-- A run of a thread within `R`. -/
inductive Path (size : Int) (k : DabKind β T) (R : Set Cell) :
    Thread → Shared β T → Thread → Shared β T → Prop
  | refl (th m) : Path size k R th m th m
  | step {th m th1 m1 th2 m2} : Own size R th → step size k th m = .ok (th1, m1) →
      Path size k R th1 m1 th2 m2 → Path size k R th m th2 m2

theorem Path.trans {R : Set Cell} {a b c : Thread} {m1 m2 m3 : Shared β T}
    (h : Path size k R a m1 b m2) (h' : Path size k R b m2 c m3) : Path size k R a m1 c m3 := by
  induction h with
  | refl => exact h'
  | step h1 h2 _ ih => exact .step h1 h2 (ih h')

theorem Path.mono {R R' : Set Cell} (hR : R ⊆ R') {a b : Thread} {m1 m2 : Shared β T}
    (h : Path size k R a m1 b m2) : Path size k R' a m1 b m2 := by
  induction h with
  | refl => exact .refl _ _
  | step h1 h2 _ ih => exact .step (fun x hx => hR (h1 x hx)) h2 ih

theorem solo_succ (th : Thread) (m : Shared β T) (n : Nat) {th1 : Thread} {m1 : Shared β T}
    (h : step size k th m = .ok (th1, m1)) : solo size k (n + 1) th m = solo size k n th1 m1 := by
  induction n with
  | zero => simp only [solo, bind, Except.bind, h]
  | succ n ih => rw [solo, ih]; rfl

/-- A run to the end: alone, the thread is clean, and finished from some step on. -/
theorem Path.clean {R : Set Cell} {th th' : Thread} {m m' : Shared β T}
    (h : Path size k R th m th' m') (hf : th'.finished) :
    Clean size k R th m ∧ ∃ N, ∀ n ≥ N, solo size k n th m = .ok (th', m') := by
  induction h with
  | refl th m =>
    obtain ⟨pc, todo⟩ := th
    obtain ⟨h1, h2⟩ := hf
    dsimp only at h1 h2
    subst h1 h2
    have : ∀ n, solo size k n ⟨.idle, []⟩ m = .ok (⟨.idle, []⟩, m) := by
      intro n
      induction n with
      | zero => rfl
      | succ n ih => rw [solo, ih]; rfl
    exact ⟨fun n => ⟨_, _, this n, fun a ha => by simp [accesses] at ha⟩, 0, fun n _ => this n⟩
  | step h1 h2 _ ih =>
    obtain ⟨hc, N, hN⟩ := ih hf
    refine ⟨fun n => ?_, N + 1, fun n hn => ?_⟩
    · cases n with
      | zero => exact ⟨_, _, rfl, h1⟩
      | succ n => rw [solo_succ _ _ n h2]; exact hc n
    · cases n with
      | zero => omega
      | succ n => rw [solo_succ _ _ n h2]; exact hN n (by omega)

/-! ### Processing one tile -/

/-- The cells of a queue with the items `xs`. -/
def cellsOf (t : TileIndex) (h : Nat) (xs : List (Nat × Nat)) : Set Cell := fun c =>
  c = .slot t ∨ c = .tile t ∨ c = .fifo h ∨ (∃ x ∈ xs, c = .item x.1) ∨ ∃ x ∈ xs, c = .op x.2

theorem path_tile {R : Set Cell} {t : TileIndex} (hin : inside size t = true) (ts : List TileIndex)
    {h : Nat} : ∀ (xs : List (Nat × Nat)) (m : Shared β T) (hdr : Fifo.Hdr),
      (∀ c, cellsOf t h xs c → c ∈ R) → m (.slot t) = (some h : Option Nat) →
      m (.fifo h) = (some hdr : Option Fifo.Hdr) →
      Fifo.Chain (fun a => (m (.item a) : Option (Fifo.Item Nat))) hdr.first xs →
      (xs.map Prod.fst).Nodup → (xs.map Prod.snd).Nodup →
      (∀ x ∈ xs, m (.op x.2) ≠ (none : Option β)) →
      ∃ m', Path size k R ⟨.pop t, ts⟩ m ⟨.idle, ts⟩ m' ∧ m' (.slot t) = (none : Option Nat) ∧
        m' (.fifo h) = (none : Option Fifo.Hdr) ∧
        (∀ x ∈ xs, m' (.item x.1) = (none : Option (Fifo.Item Nat)) ∧ m' (.op x.2) = (none : Option β)) ∧
        m' (.tile t) = (xs.filterMap fun x => (m (.op x.2) : Option β)).foldl
          (fun v d => k.processOp t d v) (m (.tile t) : T) ∧
        ∀ c, ¬ cellsOf t h xs c → m' c = m c
  | [], m, hdr, hR, hs, hf, hch, _, _, _ => by
    have hfirst : hdr.first = none := hch
    refine ⟨set (set m (.fifo h) (none : Option Fifo.Hdr)) (.slot t) (none : Option Nat), ?_, ?_, ?_, ?_, ?_, ?_⟩
    · refine .step (th1 := ⟨.head t h, ts⟩) (m1 := m) ?_ ?_ (.step (th1 := ⟨.release t h, ts⟩) (m1 := m) ?_ ?_
        (.step (th1 := ⟨.clear t, ts⟩) (m1 := set m (.fifo h) (none : Option Fifo.Hdr)) ?_ ?_
        (.step ?_ rfl (.refl _ _))))
      · intro a ha
        simp only [accesses, hin, if_true, List.mem_singleton] at ha
        subst ha; exact hR _ (Or.inl rfl)
      · simp only [step, hin, if_true, hs]
      · intro a ha
        simp only [accesses, List.mem_singleton] at ha
        subst ha; exact hR _ (Or.inr (Or.inr (Or.inl rfl)))
      · simp only [step, hf, hfirst]
      · intro a ha
        simp only [accesses, List.mem_singleton] at ha
        subst ha; exact hR _ (Or.inr (Or.inr (Or.inl rfl)))
      · simp only [step, hf, hfirst, if_true]
      · intro a ha
        simp only [accesses, List.mem_singleton] at ha
        subst ha; exact hR _ (Or.inl rfl)
    · exact set_same _ _ _
    · rw [set_ne _ _ (by simp), set_same]
    · simp
    · rw [set_ne _ _ (by simp), set_ne _ _ (by simp)]; rfl
    · intro c hc
      rw [set_ne _ _ (fun e => hc (Or.inl e)), set_ne _ _ (fun e => hc (Or.inr (Or.inr (Or.inl e))))]
  | (a, o) :: xs, m, hdr, hR, hs, hf, hch, hnd1, hnd2, hops => by
    obtain ⟨hfirst, nx, hit, hrest⟩ := hch
    obtain ⟨d, hd⟩ := Option.ne_none_iff_exists'.mp (hops (a, o) (by simp))
    simp only at hd hit
    rw [List.map_cons, List.nodup_cons] at hnd1 hnd2
    -- the memory after one round
    obtain ⟨m1, hm1⟩ : ∃ m1, m1 = set m (.fifo h) (some { hdr with first := nx } : Option Fifo.Hdr) :=
      ⟨_, rfl⟩
    obtain ⟨hdr2, hhdr2⟩ : ∃ x : Fifo.Hdr, x = ⟨nx, if nx = none then none else hdr.last, hdr.itemCount⟩ :=
      ⟨_, rfl⟩
    obtain ⟨m2, hm2⟩ : ∃ m2, m2 = set m1 (.fifo h) (some hdr2 : Option Fifo.Hdr) := ⟨_, rfl⟩
    obtain ⟨m3, hm3⟩ : ∃ m3, m3 = set m2 (.item a) (none : Option (Fifo.Item Nat)) := ⟨_, rfl⟩
    obtain ⟨hdr4, hhdr4⟩ : ∃ x : Fifo.Hdr, x = { hdr2 with itemCount := hdr2.itemCount - 1 } := ⟨_, rfl⟩
    obtain ⟨m4, hm4⟩ : ∃ m4, m4 = set m3 (.fifo h) (some hdr4 : Option Fifo.Hdr) := ⟨_, rfl⟩
    obtain ⟨m5, hm5⟩ : ∃ m5, m5 = set m4 (.tile t) (k.processOp t d (m4 (.tile t))) := ⟨_, rfl⟩
    obtain ⟨m6, hm6⟩ : ∃ m6, m6 = set m5 (.op o) (none : Option β) := ⟨_, rfl⟩
    have h1f : m1 (.fifo h) = (some { hdr with first := nx } : Option Fifo.Hdr) := by
      rw [hm1, set_same]
    have h2i : m2 (.item a) = (some ⟨nx, o⟩ : Option (Fifo.Item Nat)) := by
      rw [hm2, set_ne _ _ (by simp), hm1, set_ne _ _ (by simp)]; exact hit
    have h3f : m3 (.fifo h) = (some hdr2 : Option Fifo.Hdr) := by
      rw [hm3, set_ne _ _ (by simp), hm2, set_same]
    have h4 : ∀ c, c ≠ .fifo h → c ≠ .item a → m4 c = m c := by
      intro c c1 c2
      rw [hm4, set_ne _ _ c1, hm3, set_ne _ _ c2, hm2, set_ne _ _ c1, hm1, set_ne _ _ c1]
    have h4o : m4 (.op o) = (some d : Option β) := by
      rw [h4 _ (by simp) (by simp)]; exact hd
    have h5o : m5 (.op o) = (some d : Option β) := by
      rw [hm5, set_ne _ _ (by simp)]; exact h4o
    have h6 : ∀ c, c ≠ .fifo h → c ≠ .item a → c ≠ .tile t → c ≠ .op o → m6 c = m c := by
      intro c c1 c2 c3 c4
      rw [hm6, set_ne _ _ c4, hm5, set_ne _ _ c3, h4 c c1 c2]
    have h6f : m6 (.fifo h) = (some hdr4 : Option Fifo.Hdr) := by
      rw [hm6, set_ne _ _ (by simp), hm5, set_ne _ _ (by simp), hm4, set_same]
    have h6t : m6 (.tile t) = k.processOp t d (m (.tile t)) := by
      rw [hm6, set_ne _ _ (by simp), hm5, set_same, h4 _ (by simp) (by simp)]
    have h6i : m6 (.item a) = (none : Option (Fifo.Item Nat)) := by
      rw [hm6, set_ne _ _ (by simp), hm5, set_ne _ _ (by simp), hm4, set_ne _ _ (by simp), hm3, set_same]
    have h6o : m6 (.op o) = (none : Option β) := by rw [hm6, set_same]
    have hRx : ∀ c, cellsOf t h xs c → cellsOf t h ((a, o) :: xs) c := by
      rintro c (hc | hc | hc | ⟨x, hx, hc⟩ | ⟨x, hx, hc⟩)
      · exact Or.inl hc
      · exact Or.inr (Or.inl hc)
      · exact Or.inr (Or.inr (Or.inl hc))
      · exact Or.inr (Or.inr (Or.inr (Or.inl ⟨x, by simp [hx], hc⟩)))
      · exact Or.inr (Or.inr (Or.inr (Or.inr ⟨x, by simp [hx], hc⟩)))
    have rS : (.slot t : Cell) ∈ R := hR _ (Or.inl rfl)
    have rT : (.tile t : Cell) ∈ R := hR _ (Or.inr (Or.inl rfl))
    have rF : (.fifo h : Cell) ∈ R := hR _ (Or.inr (Or.inr (Or.inl rfl)))
    have rI : (.item a : Cell) ∈ R := hR _ (Or.inr (Or.inr (Or.inr (Or.inl ⟨(a, o), by simp, rfl⟩))))
    have rO : (.op o : Cell) ∈ R := hR _ (Or.inr (Or.inr (Or.inr (Or.inr ⟨(a, o), by simp, rfl⟩))))
    have hia : ∀ x ∈ xs, x.1 ≠ a := fun x hx e => hnd1.1 (List.mem_map.mpr ⟨x, hx, e⟩)
    have hoo : ∀ x ∈ xs, x.2 ≠ o := fun x hx e => hnd2.1 (List.mem_map.mpr ⟨x, hx, e⟩)
    have hop6 : ∀ x ∈ xs, m6 (.op x.2) = m (.op x.2) := fun x hx =>
      h6 _ (by simp) (by simp) (by simp) (by simp [hoo x hx])
    obtain ⟨m', hp, k1, k2, k3, k4, k5⟩ := path_tile hin ts xs m6 hdr4 (fun c hc => hR c (hRx c hc))
      (by rw [h6 _ (by simp) (by simp) (by simp) (by simp)]; exact hs) h6f
      (by
        rw [hhdr4, hhdr2]
        refine Fifo.chain_congr (fun i hi => ?_) hrest
        obtain ⟨x, hx, rfl⟩ := List.mem_map.mp hi
        exact (h6 _ (by simp) (by simp [hia x hx]) (by simp) (by simp)).symm)
      hnd1.2 hnd2.2 (fun x hx => by rw [hop6 x hx]; exact hops x (by simp [hx]))
    have keepI : m' (.item a) = (none : Option (Fifo.Item Nat)) := by
      rw [k5 _ ?_, h6i]
      rintro (hc | hc | hc | ⟨x, hx, hc⟩ | ⟨x, hx, hc⟩)
      · cases hc
      · cases hc
      · cases hc
      · exact hia x hx (by injection hc with e; exact e.symm)
      · cases hc
    have keepO : m' (.op o) = (none : Option β) := by
      rw [k5 _ ?_, h6o]
      rintro (hc | hc | hc | ⟨x, hx, hc⟩ | ⟨x, hx, hc⟩)
      · cases hc
      · cases hc
      · cases hc
      · cases hc
      · exact hoo x hx (by injection hc with e; exact e.symm)
    refine ⟨m', ?_, k1, k2, ?_, ?_, ?_⟩
    · refine .step (th1 := ⟨.head t h, ts⟩) (m1 := m) ?_ ?_ <|
        .step (th1 := ⟨.advance t h a, ts⟩) (m1 := m) ?_ ?_ <|
        .step (th1 := ⟨.last t h a, ts⟩) (m1 := m1) ?_ ?_ <|
        .step (th1 := ⟨.data t h a, ts⟩) (m1 := m2) ?_ ?_ <|
        .step (th1 := ⟨.freeItem t h a o, ts⟩) (m1 := m2) ?_ ?_ <|
        .step (th1 := ⟨.count t h o, ts⟩) (m1 := m3) ?_ ?_ <|
        .step (th1 := ⟨.apply t o, ts⟩) (m1 := m4) ?_ ?_ <|
        .step (th1 := ⟨.freeOp t o, ts⟩) (m1 := m5) ?_ ?_ <|
        .step (th1 := ⟨.pop t, ts⟩) (m1 := m6) ?_ ?_ hp
      · intro x hx
        simp only [accesses, hin, if_true, List.mem_singleton] at hx
        subst hx; exact rS
      · simp only [step, hin, if_true, hs]
      · intro x hx
        simp only [accesses, List.mem_singleton] at hx
        subst hx; exact rF
      · simp only [step, hf, hfirst]
      · intro x hx
        simp only [accesses, List.mem_cons, List.not_mem_nil, or_false] at hx
        rcases hx with rfl | rfl
        · exact rI
        · exact rF
      · simp only [step, hf, hit, hm1]
      · intro x hx
        simp only [accesses, List.mem_singleton] at hx
        subst hx; exact rF
      · simp only [step, h1f, hm2, hhdr2]
      · intro x hx
        simp only [accesses, List.mem_singleton] at hx
        subst hx; exact rI
      · simp only [step, h2i]
      · intro x hx
        simp only [accesses, List.mem_singleton] at hx
        subst hx; exact rI
      · simp only [step, h2i, hm3]
      · intro x hx
        simp only [accesses, List.mem_singleton] at hx
        subst hx; exact rF
      · simp only [step, h3f, hm4, hhdr4]
      · intro x hx
        simp only [accesses, List.mem_cons, List.not_mem_nil, or_false] at hx
        rcases hx with rfl | rfl
        · exact rO
        · exact rT
      · simp only [step, h4o, hm5]
      · intro x hx
        simp only [accesses, List.mem_singleton] at hx
        subst hx; exact rO
      · simp only [step, h5o, hm6]
    · intro x hx
      rcases List.mem_cons.mp hx with rfl | hx
      · exact ⟨keepI, keepO⟩
      · exact k3 x hx
    · rw [k4, h6t]
      have : (((a, o) :: xs).filterMap fun x => (m (.op x.2) : Option β))
          = d :: xs.filterMap fun x => (m6 (.op x.2) : Option β) := by
        rw [List.filterMap_cons]
        simp only [hd]
        congr 1
        refine List.filterMap_congr fun x hx => ?_
        exact (hop6 x hx).symm
      rw [this, List.foldl_cons]
    · intro c hc
      rw [k5 c (fun hc' => hc (hRx c hc'))]
      refine h6 c ?_ ?_ ?_ ?_
      · rintro rfl; exact hc (Or.inr (Or.inr (Or.inl rfl)))
      · rintro rfl; exact hc (Or.inr (Or.inr (Or.inr (Or.inl ⟨(a, o), by simp, rfl⟩))))
      · rintro rfl; exact hc (Or.inr (Or.inl rfl))
      · rintro rfl; exact hc (Or.inr (Or.inr (Or.inr (Or.inr ⟨(a, o), by simp, rfl⟩))))

/-! ### The blocks of a tile -/

open QueueMemory Spec.QueueMemory
open Spec.TileMap (InBox)

theorem inside_iff {q : Queue} {t : TileIndex} : inside q.tileMap.size t = true ↔ q.tileMap.contains t = true := by
  simp [inside, TileMap.contains, and_assoc]

theorem shared_slot {s : State β} {c : TileIndex → T} {t : TileIndex} {a : Nat} (h : Slot s t a) :
    shared s c (.slot t) = (some a : Option Nat) := by
  simp only [shared, h.1, if_true, h.2]; rfl

theorem shared_noSlot {b : Build} {s : State β} {H : List Nat} {G : Nat → List (Nat × Nat)}
    (hi : Inv b s.mem s.q.tileMap H G) {c : TileIndex → T} {t : TileIndex} (h : ∀ a, ¬ Slot s t a) :
    shared s c (.slot t) = (none : Option Nat) := by
  simp only [shared]
  by_cases hc : s.q.tileMap.contains t = true
  · rw [if_pos hc, TileMap.get_ok hi.wf ((TileMap.contains_iff _ _).mp hc)]
    cases ha : s.q.tileMap.at' t with
    | none => rfl
    | some a =>
      exact absurd ((slot_iff hi t a).mpr ⟨(TileMap.contains_iff _ _).mp hc, ha⟩) (h a)
  · rw [if_neg hc]

/-- The cells that belong to a tile. -/
def region (s : State β) (t : TileIndex) : Set Cell := fun c =>
  c = .slot t ∨ c = .tile t ∨ (∃ a, Slot s t a ∧ c = .fifo a) ∨ (∃ i, ItemOf s t i ∧ c = .item i) ∨
    ∃ o, Waits s t o ∧ c = .op o

theorem region_own {s : State β} (h : Tidy s) {t t' : TileIndex} {c : Cell} (h1 : c ∈ region s t)
    (h2 : c ∈ region s t') : t = t' := by
  rcases h1 with rfl | rfl | ⟨a, ha, rfl⟩ | ⟨a, ha, rfl⟩ | ⟨a, ha, rfl⟩ <;>
    rcases h2 with e | e | ⟨a', ha', e⟩ | ⟨a', ha', e⟩ | ⟨a', ha', e⟩ <;> cases e
  · rfl
  · rfl
  · exact h.fifoOwn _ _ _ ha ha'
  · exact h.itemOwn _ _ _ ha ha'
  · exact h.opOwn _ _ _ ha ha'

/-- The operations that wait for a tile, in order. -/
def waiting (s : State β) (G : Nat → List (Nat × Nat)) (t : TileIndex) : List β :=
  ((s.q.tileMap.at' t).map (contents s.mem G)).getD []

/-- Everything queued for the tile was applied to it and released. -/
structure Done (s : State β) (G : Nat → List (Nat × Nat)) (k : DabKind β T) (c : TileIndex → T)
    (t : TileIndex) (m : Shared β T) : Prop where
  slot : m (.slot t) = (none : Option Nat)
  fifo : ∀ a, Slot s t a → m (.fifo a) = (none : Option Fifo.Hdr)
  item : ∀ a, ItemOf s t a → m (.item a) = (none : Option (Fifo.Item Nat))
  op : ∀ a, Waits s t a → m (.op a) = (none : Option β)
  tile : m (.tile t) = (if s.q.tileMap.contains t then waiting s G t else []).foldl
    (fun v d => k.processOp t d v) (c t)

theorem Done.congr {s : State β} {G : Nat → List (Nat × Nat)} {c : TileIndex → T} {t : TileIndex}
    {m m' : Shared β T} (h : Done s G k c t m) (he : ∀ x ∈ region s t, m' x = m x) : Done s G k c t m' where
  slot := by rw [he _ (Or.inl rfl)]; exact h.slot
  fifo := fun a ha => by rw [he _ (Or.inr (Or.inr (Or.inl ⟨a, ha, rfl⟩)))]; exact h.fifo a ha
  item := fun a ha => by rw [he _ (Or.inr (Or.inr (Or.inr (Or.inl ⟨a, ha, rfl⟩))))]; exact h.item a ha
  op := fun a ha => by rw [he _ (Or.inr (Or.inr (Or.inr (Or.inr ⟨a, ha, rfl⟩))))]; exact h.op a ha
  tile := by rw [he _ (Or.inr (Or.inl rfl))]; exact h.tile

theorem path_one {b : Build} {s : State β} {H : List Nat} {G : Nat → List (Nat × Nat)}
    (hi : Inv b s.mem s.q.tileMap H G) {c : TileIndex → T} (t : TileIndex) (ts : List TileIndex)
    {m : Shared β T} (hm : ∀ x ∈ region s t, m x = shared s c x) :
    ∃ m', Path s.q.tileMap.size k (region s t) ⟨.pop t, ts⟩ m ⟨.idle, ts⟩ m' ∧ Done s G k c t m' ∧
      ∀ x, x ∉ region s t → m' x = m x := by
  have hnoItem : (∀ a, ¬ Slot s t a) → ∀ i, ¬ ItemOf s t i := by
    rintro h i ⟨a, _, ha, _⟩; exact h a ha
  have hnoOp : (∀ a, ¬ Slot s t a) → ∀ i, ¬ Waits s t i := by
    rintro h i ⟨j, _, hj, _⟩; exact hnoItem h j hj
  by_cases hc : s.q.tileMap.contains t = true
  · by_cases hs : ∃ a, Slot s t a
    · obtain ⟨a, ha⟩ := hs
      obtain ⟨hbox, hat⟩ := (slot_iff hi t a).mp ha
      obtain ⟨hdr, hhdr⟩ := Option.ne_none_iff_exists'.mp (slot_live hi ha)
      obtain ⟨hch, hnd, _⟩ := hi.holds a hdr hhdr
      have hitem : ∀ i, i ∈ (G a).map Prod.fst ↔ ItemOf s t i := by
        intro i
        rw [itemOf_iff hi]
        refine ⟨fun h => ⟨a, ha, h⟩, ?_⟩
        rintro ⟨a', ha', h⟩
        have := (slot_iff hi t a').mp ha'
        rw [hat] at this
        obtain rfl := Option.some.inj this.2
        exact h
      have hop : ∀ o, o ∈ (G a).map Prod.snd ↔ Waits s t o := by
        intro o
        rw [waits_iff hi]
        refine ⟨fun h => ⟨a, ha, h⟩, ?_⟩
        rintro ⟨a', ha', h⟩
        have := (slot_iff hi t a').mp ha'
        rw [hat] at this
        obtain rfl := Option.some.inj this.2
        exact h
      have hcells : ∀ x, cellsOf t a (G a) x ↔ x ∈ region s t := by
        intro x
        refine or_congr Iff.rfl (or_congr Iff.rfl (or_congr ?_ (or_congr ?_ ?_)))
        · refine ⟨fun h => ⟨a, ha, h⟩, ?_⟩
          rintro ⟨a', ha', h⟩
          have := (slot_iff hi t a').mp ha'
          rw [hat] at this
          obtain rfl := Option.some.inj this.2
          exact h
        · constructor
          · rintro ⟨y, hy, rfl⟩; exact ⟨y.1, (hitem y.1).mp (List.mem_map.mpr ⟨y, hy, rfl⟩), rfl⟩
          · rintro ⟨i, hi', rfl⟩
            obtain ⟨y, hy, rfl⟩ := List.mem_map.mp ((hitem i).mpr hi')
            exact ⟨y, hy, rfl⟩
        · constructor
          · rintro ⟨y, hy, rfl⟩; exact ⟨y.2, (hop y.2).mp (List.mem_map.mpr ⟨y, hy, rfl⟩), rfl⟩
          · rintro ⟨i, hi', rfl⟩
            obtain ⟨y, hy, rfl⟩ := List.mem_map.mp ((hop i).mpr hi')
            exact ⟨y, hy, rfl⟩
      have hm' : ∀ x, cellsOf t a (G a) x → m x = shared s c x := fun x hx => hm x ((hcells x).mp hx)
      have hmop : ∀ y ∈ G a, m (.op y.2) = s.mem.ops y.2 := fun y hy =>
        hm' _ (Or.inr (Or.inr (Or.inr (Or.inr ⟨y, hy, rfl⟩))))
      obtain ⟨m', hp, k1, k2, k3, k4, k5⟩ := path_tile (k := k) (R := region s t) (inside_iff.mpr hc) ts (h := a)
        (G a) m hdr (fun x hx => (hcells x).mp hx)
        (by rw [hm' _ (Or.inl rfl)]; exact shared_slot ha)
        (by rw [hm' _ (Or.inr (Or.inr (Or.inl rfl)))]; exact hhdr)
        (by
          refine Fifo.chain_congr (fun i hi' => ?_) hch
          obtain ⟨y, hy, rfl⟩ := List.mem_map.mp hi'
          exact (hm' _ (Or.inr (Or.inr (Or.inr (Or.inl ⟨y, hy, rfl⟩))))).symm)
        hnd (hi.opNodup a (slot_live hi ha))
        (fun y hy => by
          rw [hmop y hy]
          exact (hi.opLive y.2).mpr (Or.inr ⟨a, slot_live hi ha, List.mem_map.mpr ⟨y, hy, rfl⟩⟩))
      refine ⟨m', hp, ⟨k1, ?_, ?_, ?_, ?_⟩, fun x hx => k5 x (fun h => hx ((hcells x).mp h))⟩
      · intro a' ha'
        have := (slot_iff hi t a').mp ha'
        rw [hat] at this
        obtain rfl := Option.some.inj this.2
        exact k2
      · intro i hi'
        obtain ⟨y, hy, rfl⟩ := List.mem_map.mp ((hitem i).mpr hi')
        exact (k3 y hy).1
      · intro i hi'
        obtain ⟨y, hy, rfl⟩ := List.mem_map.mp ((hop i).mpr hi')
        exact (k3 y hy).2
      · rw [k4, if_pos hc, waiting, hat]
        have e1 : m (.tile t) = c t := by rw [hm' _ (Or.inr (Or.inl rfl))]; rfl
        have e2 : ((G a).filterMap fun x => (m (.op x.2) : Option β)) = contents s.mem G a :=
          List.filterMap_congr hmop
        rw [e1, e2]; rfl
    · have hs' : ∀ a, ¬ Slot s t a := fun a ha => hs ⟨a, ha⟩
      have hslot : m (.slot t) = (none : Option Nat) := by
        rw [hm _ (Or.inl rfl)]; exact shared_noSlot hi hs'
      refine ⟨m, .step ?_ ?_ (.refl _ _), ⟨hslot, fun a ha => absurd ha (hs' a),
        fun a ha => absurd ha (hnoItem hs' a), fun a ha => absurd ha (hnoOp hs' a), ?_⟩, fun _ _ => rfl⟩
      · intro x hx
        simp only [accesses, inside_iff.mpr hc, if_true, List.mem_singleton] at hx
        subst hx; exact Or.inl rfl
      · simp only [step, inside_iff.mpr hc, if_true, hslot]
      · rw [hm _ (Or.inr (Or.inl rfl)), if_pos hc, waiting]
        cases hat : s.q.tileMap.at' t with
        | none => rfl
        | some a =>
          exact absurd ((slot_iff hi t a).mpr ⟨(TileMap.contains_iff _ _).mp hc, hat⟩) (hs' a)
  · have hs' : ∀ a, ¬ Slot s t a := fun a ha => hc ha.1
    have hins : inside s.q.tileMap.size t ≠ true := fun h => hc (inside_iff.mp h)
    refine ⟨m, .step ?_ ?_ (.refl _ _), ⟨by rw [hm _ (Or.inl rfl)]; exact shared_noSlot hi hs',
      fun a ha => absurd ha (hs' a), fun a ha => absurd ha (hnoItem hs' a),
      fun a ha => absurd ha (hnoOp hs' a), ?_⟩, fun _ _ => rfl⟩
    · intro x hx
      simp [accesses, hins] at hx
    · simp [step, hins]
    · rw [hm _ (Or.inr (Or.inl rfl)), if_neg hc]; rfl

/-- The cells of several tiles. -/
def regions (s : State β) (ts : List TileIndex) : Set Cell := fun c => ∃ t ∈ ts, c ∈ region s t

theorem path_all {b : Build} {s : State β} {H : List Nat} {G : Nat → List (Nat × Nat)}
    (hi : Inv b s.mem s.q.tileMap H G) (ht : Tidy s) {c : TileIndex → T} :
    ∀ (ts : List TileIndex) (m : Shared β T), ts.Nodup → (∀ x ∈ regions s ts, m x = shared s c x) →
      ∃ m', Path s.q.tileMap.size k (regions s ts) (Thread.start ts) m ⟨.idle, []⟩ m' ∧
        (∀ t ∈ ts, Done s G k c t m') ∧ ∀ x, x ∉ regions s ts → m' x = m x
  | [], m, _, _ => ⟨m, .refl _ _, by simp, fun _ _ => rfl⟩
  | t :: ts, m, hnd, hm => by
    rw [List.nodup_cons] at hnd
    have hsub1 : region s t ⊆ regions s (t :: ts) := fun x hx => ⟨t, by simp, hx⟩
    have hsub2 : regions s ts ⊆ regions s (t :: ts) := by
      rintro x ⟨u, hu, hx⟩; exact ⟨u, by simp [hu], hx⟩
    have hdis : ∀ x, x ∈ regions s ts → x ∉ region s t := by
      rintro x ⟨u, hu, hx⟩ hx'
      have := region_own ht hx hx'
      subst this
      exact hnd.1 hu
    obtain ⟨m1, hp1, hd1, ho1⟩ := path_one (k := k) hi t ts (c := c) (m := m)
      (fun x hx => hm x (hsub1 hx))
    obtain ⟨m2, hp2, hd2, ho2⟩ := path_all hi ht ts m1 hnd.2
      (fun x hx => by rw [ho1 x (hdis x hx)]; exact hm x (hsub2 hx))
    refine ⟨m2, .step ?_ rfl ((hp1.mono hsub1).trans (hp2.mono hsub2)), ?_, ?_⟩
    · intro x hx; simp [accesses, Thread.start] at hx
    · intro u hu
      rcases List.mem_cons.mp hu with rfl | hu
      · exact hd1.congr (fun x hx => ho2 x (fun h => hdis x h hx))
      · exact hd2 u hu
    · intro x hx
      rw [ho2 x (fun h => hx (hsub2 h)), ho1 x (fun h => hx (hsub1 h))]

/-- Any schedule of threads with disjoint shares. -/
theorem team_runs {b : Build} {s : State β} {G : Nat → List (Nat × Nat)}
    (hi : Inv b s.mem s.q.tileMap [] G) (ht : Tidy s) {c : TileIndex → T} (jobs : Nat → List TileIndex)
    (hj : ∀ i, (jobs i).Nodup) (hd : ∀ i j t, t ∈ jobs i → t ∈ jobs j → i = j) :
    ∃ N : Nat → Nat, ∀ sched, ∃ tr ths m,
      exec s.q.tileMap.size k sched (fun i => Thread.start (jobs i)) (shared s c) = .ok (tr, ths, m) ∧
      (∀ x ∈ tr, ∃ t ∈ jobs x.1, x.2.1 ∈ region s t) ∧
      (∀ i, N i ≤ sched.count i → (ths i).finished) ∧
      (∀ i, (ths i).finished → ∀ t ∈ jobs i, Done s G k c t m) ∧
      (∀ x, (∀ i, ∀ t ∈ jobs i, x ∉ region s t) → m x = shared s c x) := by
  have hall := fun i => path_all (k := k) hi ht (c := c) (jobs i) (shared s c) (hj i) (fun _ _ => rfl)
  have hcl : ∀ i, ∃ mi, (∀ t ∈ jobs i, Done s G k c t mi) ∧
      Clean s.q.tileMap.size k (regions s (jobs i)) (Thread.start (jobs i)) (shared s c) ∧
      ∃ N, ∀ n ≥ N, solo s.q.tileMap.size k n (Thread.start (jobs i)) (shared s c) = .ok (⟨.idle, []⟩, mi) := by
    intro i
    obtain ⟨mi, hp, h1, _⟩ := hall i
    obtain ⟨h2, h3⟩ := hp.clean ⟨rfl, rfl⟩
    exact ⟨mi, h1, h2, h3⟩
  choose mi hdone hclean hN using hcl
  choose N hN using hN
  have hR : ∀ i j x, x ∈ regions s (jobs i) → x ∈ regions s (jobs j) → i = j := by
    rintro i j x ⟨t, ht1, hx1⟩ ⟨u, hu1, hx2⟩
    have := region_own ht hx1 hx2
    subst this
    exact hd i j t ht1 hu1
  refine ⟨N, fun sched => ?_⟩
  obtain ⟨tr, ths, m, he, hsp, htr⟩ := exec_split (k := k) hR hclean sched (fun _ => 0) _ (shared s c)
    ⟨fun i => ⟨shared s c, rfl, fun _ _ => rfl⟩, fun _ _ => rfl⟩
  refine ⟨tr, ths, m, he, htr, ?_, ?_, ?_⟩
  · intro i hle
    obtain ⟨m', h1, _⟩ := hsp.own i
    rw [hN i _ (by simpa using hle)] at h1
    have := congrArg Prod.fst (Except.ok.inj h1)
    simp only at this
    rw [← this]; exact ⟨rfl, rfl⟩
  · intro i hf t htj
    obtain ⟨m', h1, h2⟩ := hsp.own i
    -- a finished thread has the memory of the end
    have hfix : ∀ n, solo s.q.tileMap.size k (0 + sched.count i + n) (Thread.start (jobs i)) (shared s c)
        = .ok (ths i, m') := by
      intro n
      induction n with
      | zero => exact h1
      | succ n ih =>
        rw [show 0 + sched.count i + (n + 1) = (0 + sched.count i + n) + 1 by omega, solo, ih]
        obtain ⟨e1, e2⟩ := hf
        simp only [bind, Except.bind, step, e1, e2]
    have h3 := hfix (N i)
    rw [hN i _ (by omega)] at h3
    have := congrArg Prod.snd (Except.ok.inj h3)
    simp only at this
    subst this
    exact (hdone i t htj).congr (fun x hx => h2 x ⟨t, htj, hx⟩)
  · intro x hx
    refine hsp.rest x (fun i => ?_)
    rintro ⟨t, ht1, hx1⟩
    exact hx i t ht1 hx1

end Verif.Threads
