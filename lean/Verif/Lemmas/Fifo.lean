import Verif.Model.Fifo
import Verif.Spec.Fifo

/-! Helper lemmas for the linked-list queue. -/

namespace Verif.Fifo

variable {α : Type}

/-- `Chain h p xs`: following `next` from pointer `p` visits exactly the items `xs`
(address, payload) and ends in NULL. -/
def Chain (h : Heap α) : Option Nat → List (Nat × α) → Prop
  | p, [] => p = none
  | p, (a, d) :: xs => p = some a ∧ ∃ nx, h a = some ⟨nx, d⟩ ∧ Chain h nx xs

/-- The queue in state `s` holds the items `xs`. -/
def Holds (s : State α) (xs : List (Nat × α)) : Prop :=
  Chain s.heap s.q.first xs ∧ (xs.map Prod.fst).Nodup ∧
  s.q.last = (xs.map Prod.fst).getLast?

theorem chain_congr {h h' : Heap α} : ∀ {xs : List (Nat × α)} {p : Option Nat},
    (∀ a ∈ xs.map Prod.fst, h a = h' a) → Chain h p xs → Chain h' p xs
  | [], _, _, hc => hc
  | (a, d) :: xs, p, hh, hc => by
    obtain ⟨hp, nx, ha, hrest⟩ := hc
    refine ⟨hp, nx, ?_, chain_congr (fun b hb => hh b (by simp at hb ⊢; exact Or.inr hb)) hrest⟩
    rw [← hh a (by simp)]; exact ha

theorem chain_alloc {h : Heap α} : ∀ {xs : List (Nat × α)} {p : Option Nat},
    Chain h p xs → ∀ a ∈ xs.map Prod.fst, h a ≠ none
  | [], _, _, a, ha => by simp at ha
  | (b, d) :: xs, p, hc, a, ha => by
    obtain ⟨_, nx, hb, hrest⟩ := hc
    simp only [List.map_cons, List.mem_cons] at ha
    rcases ha with rfl | ha
    · simp [hb]
    · exact chain_alloc hrest a ha

theorem ne_of_mem_of_not_mem' {a b : Nat} {l : List Nat} (h : b ∈ l) (h' : a ∉ l) : b ≠ a :=
  fun e => h' (e ▸ h)

theorem set_self (h : Heap α) (a : Nat) (v : Option (Item α)) : h.set a v a = v := by
  simp [Heap.set]

theorem set_other (h : Heap α) {a b : Nat} (v : Option (Item α)) (hab : b ≠ a) :
    h.set a v b = h b := by
  simp [Heap.set, hab]

/-- Appending: relink the last item to a fresh one. -/
theorem chain_append {h : Heap α} {a : Nat} {d : α} :
    ∀ {xs : List (Nat × α)} {p : Option Nat} {l : Nat}, Chain h p xs →
      (xs.map Prod.fst).Nodup → a ∉ xs.map Prod.fst → h a = some ⟨none, d⟩ →
      (xs.map Prod.fst).getLast? = some l →
      ∃ it, h l = some it ∧ Chain (h.set l (some { it with next := some a })) p (xs ++ [(a, d)])
  | [], _, _, _, _, _, _, hl => by simp at hl
  | [(b, e)], p, l, hc, _, hna, ha, hl => by
    obtain ⟨hp, nx, hb, hrest⟩ := hc
    simp at hl; subst hl
    have hab : a ≠ b := by simpa using hna
    refine ⟨_, hb, hp, some a, ?_, rfl, none, ?_, rfl⟩
    · simp [set_self]
    · rw [set_other _ _ hab]; exact ha
  | (b, e) :: (c, f) :: xs, p, l, hc, hnd, hna, ha, hl => by
    obtain ⟨hp, nx, hb, hrest⟩ := hc
    have hnd' : (((c, f) :: xs).map Prod.fst).Nodup := by
      simp only [List.map_cons, List.nodup_cons] at hnd ⊢; exact hnd.2
    have hna' : a ∉ ((c, f) :: xs).map Prod.fst := by
      simp only [List.map_cons, List.mem_cons, not_or] at hna ⊢; exact hna.2
    have hl' : (((c, f) :: xs).map Prod.fst).getLast? = some l := by
      simpa [List.getLast?_cons_cons] using hl
    obtain ⟨it, hlit, hch⟩ := chain_append hrest hnd' hna' ha hl'
    refine ⟨it, hlit, hp, nx, ?_, hch⟩
    have hlmem : l ∈ ((c, f) :: xs).map Prod.fst := List.mem_of_getLast? hl'
    have hbl : b ≠ l := by
      intro hcontra; subst hcontra
      simp only [List.map_cons, List.nodup_cons] at hnd
      simp only [List.map_cons] at hlmem
      exact hnd.1 hlmem
    rw [set_other _ _ hbl]; exact hb

/-- One push. -/
theorem push_holds {s : State α} {xs : List (Nat × α)} (hs : Holds s xs) (a : Nat) (d : α)
    (hfresh : s.heap a = none) :
    ∃ s', push s (some a) d = some s' ∧ Holds s' (xs ++ [(a, d)]) ∧
      (∀ b, b ≠ a → b ∉ xs.map Prod.fst → s'.heap b = s.heap b) := by
  obtain ⟨hch, hnd, hlast⟩ := hs
  have hna : a ∉ xs.map Prod.fst := fun hmem => chain_alloc hch a hmem hfresh
  have hch1 : Chain (s.heap.set a (some ⟨none, d⟩)) s.q.first xs :=
    chain_congr (fun b hb => (set_other _ _ (ne_of_mem_of_not_mem' hb hna)).symm) hch
  cases hl : s.q.last with
  | none =>
    have hx : xs = [] := by
      rw [hl] at hlast
      cases xs with
      | nil => rfl
      | cons x xs => exact absurd hlast.symm (by simp [List.getLast?_eq_none_iff])
    subst hx
    refine ⟨_, by simp only [push, hl]; rfl, ?_, ?_⟩
    · refine ⟨⟨rfl, none, by simp [set_self], rfl⟩, by simp, by simp⟩
    · intro b hb _; simp [set_other, hb]
  | some l =>
    rw [hl] at hlast
    obtain ⟨it, hit, hch2⟩ := chain_append (a := a) (d := d) hch1 hnd hna (set_self _ _ _) hlast.symm
    have hlmem : l ∈ xs.map Prod.fst := List.mem_of_getLast? hlast.symm
    refine ⟨_, by simp only [push, hl, hit]; rfl, ?_, ?_⟩
    · refine ⟨hch2, ?_, by simp⟩
      rw [List.map_append, List.nodup_append]
      refine ⟨hnd, by simp, ?_⟩
      intro x hx y hy hxy
      simp at hy; subst hy; subst hxy; exact hna hx
    · intro b hb hbx
      have hbl : b ≠ l := fun h => hbx (h ▸ hlmem)
      simp only [set_other _ _ hbl, set_other _ _ hb]

/-- One pop. -/
theorem pop_holds {s : State α} {xs : List (Nat × α)} (hs : Holds s xs) :
    ∃ s', pop s = some ((xs.map Prod.snd).head?, s') ∧ Holds s' xs.tail ∧
      (∀ b, b ∉ xs.map Prod.fst → s'.heap b = s.heap b) ∧
      (∀ b ∈ (xs.map Prod.fst).head?, s'.heap b = none) := by
  obtain ⟨hch, hnd, hlast⟩ := hs
  cases xs with
  | nil =>
    have hf : s.q.first = none := hch
    refine ⟨s, by simp [pop, hf], ⟨hch, hnd, hlast⟩, fun _ _ => rfl, by simp⟩
  | cons x xs =>
    obtain ⟨a, d⟩ := x
    obtain ⟨hp, nx, ha, hrest⟩ := hch
    have hna : a ∉ xs.map Prod.fst := by
      simp only [List.map_cons, List.nodup_cons] at hnd; exact hnd.1
    refine ⟨_, by simp only [pop, hp, ha]; rfl, ?_, ?_, ?_⟩
    · refine ⟨?_, ?_, ?_⟩
      · exact chain_congr (fun b hb => (set_other _ _ (ne_of_mem_of_not_mem' hb hna)).symm) hrest
      · simp only [List.map_cons, List.nodup_cons] at hnd; exact hnd.2
      · simp only [List.tail_cons]
        cases xs with
        | nil => have : nx = none := hrest
                 simp [this]
        | cons y ys =>
          obtain ⟨hnx, _⟩ := hrest
          simp [hnx, hlast]
    · intro b hb
      have : b ≠ a := fun h => hb (by simp [h])
      simp only [set_other _ _ this]
    · intro b hb
      simp at hb; subst hb; simp [set_self]

theorem peekFirst_holds {s : State α} {xs : List (Nat × α)} (hs : Holds s xs) :
    peekFirst s = some (xs.map Prod.snd).head? := by
  obtain ⟨hch, -, -⟩ := hs
  cases xs with
  | nil => have hf : s.q.first = none := hch
           simp [peekFirst, hf]
  | cons x xs =>
    obtain ⟨hp, nx, ha, -⟩ := hch
    simp [peekFirst, hp, ha]

theorem chain_getLast {h : Heap α} : ∀ {xs : List (Nat × α)} {p : Option Nat} {l : Nat},
    Chain h p xs → (xs.map Prod.fst).getLast? = some l →
    ∃ it, h l = some it ∧ (xs.map Prod.snd).getLast? = some it.payload
  | [], _, _, _, hl => by simp at hl
  | [(b, e)], p, l, hc, hl => by
    obtain ⟨hp, nx, hb, hrest⟩ := hc
    simp at hl; subst hl
    exact ⟨_, hb, by simp⟩
  | (b, e) :: (c, f) :: xs, p, l, hc, hl => by
    obtain ⟨hp, nx, hb, hrest⟩ := hc
    have hl' : (((c, f) :: xs).map Prod.fst).getLast? = some l := by
      simpa [List.getLast?_cons_cons] using hl
    obtain ⟨it, hit, hg⟩ := chain_getLast hrest hl'
    exact ⟨it, hit, by simpa [List.getLast?_cons_cons] using hg⟩

theorem peekLast_holds {s : State α} {xs : List (Nat × α)} (hs : Holds s xs) :
    peekLast s = some (xs.map Prod.snd).getLast? := by
  obtain ⟨hch, -, hlast⟩ := hs
  cases hl : s.q.last with
  | none =>
    rw [hl] at hlast
    cases xs with
    | nil => simp [peekLast, hl]
    | cons x xs => exact absurd hlast.symm (by simp [List.getLast?_eq_none_iff])
  | some l =>
    rw [hl] at hlast
    obtain ⟨it, hit, hg⟩ := chain_getLast hch hlast.symm
    simp [peekLast, hl, hit, hg]

/-- `fifo_free` releases exactly the items of the queue. -/
theorem freeLoop_chain : ∀ (xs : List (Nat × α)) (h : Heap α) (p : Option Nat) (fuel : Nat),
    Chain h p xs → (xs.map Prod.fst).Nodup → xs.length ≤ fuel →
    ∃ h', freeLoop fuel h p = some h' ∧
      (∀ b ∈ xs.map Prod.fst, h' b = none) ∧ (∀ b, b ∉ xs.map Prod.fst → h' b = h b)
  | [], h, p, fuel, hc, _, _ => by
    have : p = none := hc
    subst this
    exact ⟨h, by cases fuel <;> rfl, by simp, by simp⟩
  | (a, d) :: xs, h, p, 0, _, _, hf => by simp at hf
  | (a, d) :: xs, h, p, fuel + 1, hc, hnd, hf => by
    obtain ⟨hp, nx, ha, hrest⟩ := hc
    have hna : a ∉ xs.map Prod.fst := by
      simp only [List.map_cons, List.nodup_cons] at hnd; exact hnd.1
    have hnd' : (xs.map Prod.fst).Nodup := by
      simp only [List.map_cons, List.nodup_cons] at hnd; exact hnd.2
    have hrest' : Chain (h.set a none) nx xs :=
      chain_congr (fun b hb => (set_other _ _ (ne_of_mem_of_not_mem' hb hna)).symm) hrest
    obtain ⟨h', he, hin, hout⟩ := freeLoop_chain xs (h.set a none) nx fuel hrest' hnd'
      (by simpa using hf)
    refine ⟨h', by subst hp; simp only [freeLoop, ha]; exact he, ?_, ?_⟩
    · intro b hb
      simp only [List.map_cons, List.mem_cons] at hb
      by_cases hbx : b ∈ xs.map Prod.fst
      · exact hin b hbx
      · rcases hb with rfl | hb
        · rw [hout b hbx]; exact set_self _ _ _
        · exact absurd hb hbx
    · intro b hb
      simp only [List.map_cons, List.mem_cons, not_or] at hb
      rw [hout b hb.2]; exact set_other _ _ hb.1

end Verif.Fifo
