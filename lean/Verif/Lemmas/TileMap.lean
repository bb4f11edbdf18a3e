import Verif.Model.TileMap
import Verif.Spec.TileMap
import Mathlib.Tactic.Linarith
import Mathlib.Tactic.Ring

/-! Helper lemmas for the tile map. -/

namespace Verif

theorem chk_ok {z : Int} (h1 : intMin ≤ z) (h2 : z ≤ intMax) : chk z = .ok z := by
  simp [chk, h1, h2]

theorem chk_err {z : Int} (h : intMax < z) : chk z = .error .intOverflow := by
  simp [chk]; intro _; exact h

theorem mem_cRange {lo hi i : Int} : i ∈ cRange lo hi ↔ lo ≤ i ∧ i < hi := by
  simp only [cRange, List.mem_map, List.mem_range]
  constructor
  · rintro ⟨k, hk, rfl⟩; omega
  · rintro ⟨h1, h2⟩; exact ⟨(i - lo).toNat, by omega, by omega⟩

namespace TileMap

open Spec.TileMap (ValidSize InBox)

variable {α : Type}

/-- The offset as a formula. -/
def off (s : Int) (i : TileIndex) : Int := (s + i.y) * (s * 2) + s + i.x

theorem contains_iff (m : TileMap α) (i : TileIndex) : m.contains i = true ↔ InBox m.size i := by
  simp [contains, InBox, and_assoc]

theorem sq_le {s : Int} (h : ValidSize s) : 4 * s * s ≤ intMax := by
  obtain ⟨h1, h2⟩ := h
  have : s * s ≤ 23170 * 23170 := by nlinarith
  unfold intMax; linarith

theorem mapSize_ok {s : Int} (h : ValidSize s) : mapSize s = .ok (4 * s * s) := by
  have hs := sq_le h
  obtain ⟨h1, h2⟩ := h
  unfold mapSize
  rw [chk_ok (by unfold intMin; linarith) (by unfold intMax; linarith)]
  simp only [bind, Except.bind]
  rw [chk_ok (by unfold intMin; linarith) (by unfold intMax; linarith)]
  simp only [bind, Except.bind]
  have e : 2 * s * 2 * s = 4 * s * s := by ring
  rw [e, chk_ok (by unfold intMin; nlinarith) hs]

theorem mapSize_err {s : Int} (h : 23170 < s) : mapSize s = .error .intOverflow := by
  unfold mapSize
  by_cases ha : 2 * s ≤ intMax
  · rw [chk_ok (by unfold intMin; linarith) ha]
    simp only [bind, Except.bind]
    by_cases hb : 2 * s * 2 ≤ intMax
    · rw [chk_ok (by unfold intMin; linarith) hb]
      simp only [bind, Except.bind]
      apply chk_err
      unfold intMax; nlinarith
    · rw [chk_err (by linarith)]
  · rw [chk_err (by linarith)]; rfl

theorem off_nonneg {s : Int} (h : ValidSize s) {i : TileIndex} (hi : InBox s i) : 0 ≤ off s i := by
  obtain ⟨h1, _⟩ := h
  obtain ⟨a, b, c, d⟩ := hi
  unfold off
  have : 0 ≤ (s + i.y) * (s * 2) := by apply mul_nonneg <;> linarith
  linarith

theorem off_lt {s : Int} (h : ValidSize s) {i : TileIndex} (hi : InBox s i) :
    off s i < 4 * s * s := by
  obtain ⟨h1, _⟩ := h
  obtain ⟨a, b, c, d⟩ := hi
  unfold off
  have : (s + i.y) * (s * 2) ≤ (2 * s - 1) * (s * 2) := by
    apply mul_le_mul_of_nonneg_right <;> linarith
  nlinarith

theorem off_inj {s : Int} (h : ValidSize s) {i j : TileIndex} (hi : InBox s i) (hj : InBox s j)
    (he : off s i = off s j) : i = j := by
  obtain ⟨h1, _⟩ := h
  obtain ⟨a, b, c, d⟩ := hi
  obtain ⟨a', b', c', d'⟩ := hj
  unfold off at he
  have hy : i.y = j.y := by
    rcases lt_trichotomy i.y j.y with hlt | heq | hgt
    · exfalso
      have : (s + i.y) * (s * 2) + s * 2 ≤ (s + j.y) * (s * 2) := by nlinarith
      linarith
    · exact heq
    · exfalso
      have : (s + j.y) * (s * 2) + s * 2 ≤ (s + i.y) * (s * 2) := by nlinarith
      linarith
  have hx : i.x = j.x := by rw [hy] at he; linarith
  cases i; cases j; simp_all

theorem offset_ok {s : Int} (h : ValidSize s) {i : TileIndex} (hi : InBox s i) :
    offset s i = .ok (off s i) := by
  have hsq := sq_le h
  have h0 := off_nonneg h hi
  have hlt := off_lt h hi
  have hms := mapSize_ok h
  obtain ⟨h1, h2⟩ := h
  obtain ⟨a, b, c, d⟩ := hi
  have hbase0 : 0 ≤ (s + i.y) * (s * 2) := by apply mul_nonneg <;> linarith
  unfold off at h0 hlt
  have e1 : chk (s * 2) = .ok (s * 2) := chk_ok (by unfold intMin; linarith) (by unfold intMax; linarith)
  have e2 : chk (s + i.y) = .ok (s + i.y) :=
    chk_ok (by unfold intMin; linarith) (by unfold intMax; linarith)
  have e3 : chk ((s + i.y) * (s * 2)) = .ok ((s + i.y) * (s * 2)) :=
    chk_ok (by unfold intMin; linarith) (by linarith)
  have e4 : chk ((s + i.y) * (s * 2) + s) = .ok ((s + i.y) * (s * 2) + s) := by
    apply chk_ok
    · unfold intMin; linarith
    · have : (s + i.y) * (s * 2) ≤ (2 * s - 1) * (s * 2) := by
        apply mul_le_mul_of_nonneg_right <;> linarith
      nlinarith
  have e5 : chk ((s + i.y) * (s * 2) + s + i.x) = .ok ((s + i.y) * (s * 2) + s + i.x) :=
    chk_ok (by unfold intMin; linarith) (by linarith)
  simp only [offset, e1, e2, e3, e4, e5, hms, bind, Except.bind, pure, Except.pure, off]
  rw [if_neg (by omega), if_neg (by omega)]

/-- A well-formed map: valid size and the right number of slots. -/
def WF (m : TileMap α) : Prop := ValidSize m.size ∧ (m.map.length : Int) = 4 * m.size * m.size

/-- Content of a position inside the map. -/
def at' (m : TileMap α) (i : TileIndex) : Option α := (m.map[(off m.size i).toNat]?).getD none

theorem off_toNat_lt {m : TileMap α} (h : WF m) {i : TileIndex} (hi : InBox m.size i) :
    (off m.size i).toNat < m.map.length := by
  have := off_lt h.1 hi
  have := off_nonneg h.1 hi
  have := h.2
  omega

theorem get_ok {m : TileMap α} (h : WF m) {i : TileIndex} (hi : InBox m.size i) :
    m.get i = .ok (m.at' i) := by
  simp only [get, offset_ok h.1 hi, bind, Except.bind, at']
  rw [List.getElem?_eq_getElem (off_toNat_lt h hi)]
  rfl

theorem put_ok {m : TileMap α} (h : WF m) {i : TileIndex} (hi : InBox m.size i) (v : Option α) :
    m.put i v = .ok { m with map := m.map.set (off m.size i).toNat v } := by
  simp only [put, offset_ok h.1 hi, bind, Except.bind]
  rw [if_pos (off_toNat_lt h hi)]
  rfl

theorem put_wf {m m' : TileMap α} (h : WF m) {i : TileIndex} {v : Option α} (hi : InBox m.size i)
    (hp : m.put i v = .ok m') :
    WF m' ∧ m'.size = m.size ∧ m'.at' i = v ∧
      ∀ j, InBox m.size j → j ≠ i → m'.at' j = m.at' j := by
  rw [put_ok h hi] at hp
  injection hp with hp
  subst hp
  refine ⟨⟨h.1, by simpa using h.2⟩, rfl, ?_, ?_⟩
  · simp [at', off_toNat_lt h hi]
  · intro j hj hne
    have hneq : (off m.size i).toNat ≠ (off m.size j).toNat := by
      intro he
      apply hne
      apply off_inj h.1 hj hi
      have := off_nonneg h.1 hi
      have := off_nonneg h.1 hj
      omega
    simp [at', List.getElem?_set_ne hneq]

theorem new_ok {s : Int} (h : ValidSize s) :
    ∃ m : TileMap α, new s = .ok m ∧ WF m ∧ m.size = s ∧ ∀ i, m.at' i = none := by
  refine ⟨{ size := s, map := List.replicate (4 * s * s).toNat none }, ?_, ⟨h, ?_⟩, rfl, ?_⟩
  · simp only [new, mapSize_ok h, bind, Except.bind]; rfl
  · have : 0 ≤ 4 * s * s := by obtain ⟨h1, _⟩ := h; nlinarith
    simp [this]
  · intro i
    simp only [at', List.getElem?_replicate]
    split <;> rfl

theorem mem_allIndices {s : Int} {i : TileIndex} : i ∈ allIndices s ↔ InBox s i := by
  simp only [allIndices, List.mem_flatMap, List.mem_map, mem_cRange, InBox]
  constructor
  · rintro ⟨y, hy, x, hx, rfl⟩; exact ⟨hx.1, hx.2, hy.1, hy.2⟩
  · rintro ⟨a, b, c, d⟩; exact ⟨i.y, ⟨c, d⟩, i.x, ⟨a, b⟩, rfl⟩

theorem inBox_mono {s t : Int} (hst : s ≤ t) {i : TileIndex} (h : InBox s i) : InBox t i := by
  obtain ⟨a, b, c, d⟩ := h; exact ⟨by linarith, by linarith, by linarith, by linarith⟩

theorem copy_fold {self : TileMap α} (hw : WF self) :
    ∀ (l : List TileIndex) (other : TileMap α), WF other → self.size ≤ other.size →
      (∀ i ∈ l, InBox self.size i) →
      ∃ m, l.foldlM (copyStep self) other = .ok m ∧ WF m ∧ m.size = other.size ∧
        (∀ i, InBox other.size i → m.at' i = if i ∈ l then self.at' i else other.at' i)
  | [], other, hwo, _, _ => ⟨other, rfl, hwo, rfl, by simp⟩
  | i :: l, other, hwo, hle, hl => by
    have hi := hl i (by simp)
    have hio := inBox_mono hle hi
    have hstep : copyStep self other i
        = .ok { other with map := other.map.set (off other.size i).toNat (self.at' i) } := by
      simp only [copyStep, get_ok hw hi, bind, Except.bind, put_ok hwo hio]
    obtain ⟨hwf, hsz, hat, hother⟩ := put_wf hwo hio (put_ok hwo hio (self.at' i))
    obtain ⟨m, hm, hwm, hsm, hval⟩ := copy_fold hw l _ hwf (by rw [hsz]; exact hle)
      (fun j hj => hl j (by simp [hj]))
    refine ⟨m, ?_, hwm, by rw [hsm, hsz], ?_⟩
    · rw [List.foldlM_cons, hstep]; exact hm
    · intro j hj
      rw [hval j (by rw [hsz]; exact hj)]
      by_cases hjl : j ∈ l
      · simp [hjl]
      · by_cases hji : j = i
        · subst hji; simp [hjl]; exact hat
        · simp [hjl, hji]; exact hother j hj hji

theorem copyTo_ok {self other : TileMap α} (hw : WF self) (hwo : WF other)
    (hle : self.size ≤ other.size) :
    ∃ m, self.copyTo other = .ok m ∧ WF m ∧ m.size = other.size ∧
      (∀ i, InBox self.size i → m.at' i = self.at' i) ∧
      (∀ i, InBox other.size i → ¬ InBox self.size i → m.at' i = other.at' i) := by
  obtain ⟨m, hm, hwm, hsm, hval⟩ := copy_fold hw (allIndices self.size) other hwo hle
    (fun i hi => mem_allIndices.mp hi)
  refine ⟨m, ?_, hwm, hsm, ?_, ?_⟩
  · simp only [copyTo, hle, ge_iff_le, not_true_eq_false, if_false, bind, Except.bind, pure,
      Except.pure]
    exact hm
  · intro i hi
    rw [hval i (inBox_mono hle hi), if_pos (mem_allIndices.mpr hi)]
  · intro i hi hni
    rw [hval i hi, if_neg (fun h => hni (mem_allIndices.mp h))]

end TileMap

end Verif
