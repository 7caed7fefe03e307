import Verif.Model.ZigZag
import Verif.Spec.ZigZag
/-!
# Zig-zag order
-/

namespace Jpeg
open Spec

theorem UNZIGZAG_eq : UNZIGZAG = (List.range 64).map zigzag := by decide +kernel

theorem UNZIGZAG_get (k : Nat) (h : k < 64) : UNZIGZAG[k]? = some (zigzag k) := by
  rw [UNZIGZAG_eq, List.getElem?_map, List.getElem?_range h]; rfl

theorem zigzag_lt (k : Nat) (h : k < 64) : zigzag k < 64 := by
  have : ∀ k : Fin 64, zigzag k < 64 := by decide +kernel
  exact this ⟨k, h⟩

theorem zigzag_inj {j k : Nat} (hj : j < 64) (hk : k < 64) (h : zigzag j = zigzag k) : j = k := by
  have : ∀ j k : Fin 64, zigzag j = zigzag k → j = k := by decide +kernel
  have := this ⟨j, hj⟩ ⟨k, hk⟩ h
  simpa using this

theorem zigzag_surj (p : Nat) (h : p < 64) : ∃ k, k < 64 ∧ zigzag k = p := by
  have : ∀ p : Fin 64, ∃ k : Fin 64, zigzag k = p := by decide +kernel
  obtain ⟨k, hk⟩ := this ⟨p, h⟩
  exact ⟨k, k.2, hk⟩

@[simp] theorem zigzag_zero : zigzag 0 = 0 := by decide

theorem unzigzag_ok {α : Type} (out : List α) (k : Nat) (v : α) (hk : k < 64)
    (hl : out.length = 64) : unzigzag out k v = .ok (out.set (zigzag k) v) := by
  unfold unzigzag
  rw [UNZIGZAG_get k hk]
  simp [hl, zigzag_lt k hk]

theorem quantGo_ok (table : List Nat) (hlen : table.length = 64) :
    ∀ (fuel j : Nat) (out : List Nat), j + fuel = 64 → out.length = 64 →
    (∀ i, i < j → out[zigzag i]? = table[i]?) →
    ∃ out', quantGo table fuel j out = .ok out' ∧ out'.length = 64 ∧
      ∀ i, i < 64 → out'[zigzag i]? = table[i]? := by
  intro fuel
  induction fuel with
  | zero =>
    intro j out hj hl h
    exact ⟨out, rfl, hl, fun i hi => h i (by omega)⟩
  | succ fuel ih =>
    intro j out hj hl h
    have hj64 : j < 64 := by omega
    have hjt : j < table.length := by omega
    unfold quantGo
    rw [List.getElem?_eq_getElem hjt]
    simp only [unzigzag_ok out j _ hj64 hl]
    apply ih (j + 1) _ (by omega) (by simpa using hl)
    intro i hi
    by_cases hij : i = j
    · subst hij
      rw [List.getElem?_set_self (by rw [hl]; exact zigzag_lt _ hj64), List.getElem?_eq_getElem hjt]
    · rw [List.getElem?_set_ne, h i (by omega)]
      intro he
      exact hij (zigzag_inj hj64 (by omega) he).symm

end Jpeg
