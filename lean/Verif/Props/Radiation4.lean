import Verif.Props.Radiation3

/-!
# Radiation: a concrete case meeting the hypotheses of C98 to C102

One edge of unit length between two nodes with half of the volume each, a wall at each end, two ordinates, absorption
coefficient one.
-/

namespace Nalu.Rad
open Nalu.Edge Nalu.Kernel

/-- A wall face consisting of one point. -/
def exFace (a : ℚ) : WallFace 1 1 1 ℚ := ⟨fun _ _ => 1, fun _ _ => a, fun _ => 0⟩

/-- A wall consisting of one point. -/
def exWall (m : Fin 2) (a : ℚ) : Wall (Fin 2) 1 ℚ := ⟨1, 1, exFace a, fun _ => m, fun _ => |a|⟩

theorem exFace_shift (a : ℚ) (ip i : Fin 1) : (exFace a).shape ip i = if i = (exFace a).near ip then 1 else 0 :=
  (if_pos (Subsingleton.elim i _)).symm

theorem exFace_unity (a : ℚ) (ip : Fin 1) : Unity ((exFace a).shape ip) := by simp [Unity, exFace]

/-- The slab. -/
def exMesh (scat src G bc0 bc1 : ℚ) : EdgeMesh (Fin 2) 1 ℚ where
  edges := [(![0, 1], ⟨fun _ => 1, fun _ => 0, fun _ => 1, 1 / 4⟩)]
  vol := fun _ => 1 / 2
  data := fun _ => ⟨1, scat, src, G⟩
  walls := [exWall 0 (-1), exWall 1 1]
  bc := ![bc0, bc1]

/-- Two opposite directions. -/
def exDir : Fin 2 → Fin 1 → ℚ := ![fun _ => 1, fun _ => -1]

theorem exClosed (s src G b0 b1 : ℚ) : EdgeClosed (exMesh s src G b0 b1) := by
  intro m j
  fin_cases m <;> simp [exMesh, exWall, exFace]

theorem exShifted (s src G b0 b1 : ℚ) : ShiftedWalls (exMesh s src G b0 b1).walls := by
  intro b hb ip a
  simp only [exMesh, List.mem_cons, List.not_mem_nil, or_false] at hb
  rcases hb with rfl | rfl
  · exact exFace_shift _ ip a
  · exact exFace_shift _ ip a

theorem exUnity (s src G b0 b1 : ℚ) : ∀ b ∈ (exMesh s src G b0 b1).walls, ∀ ip, Unity (b.face.shape ip) := by
  intro b hb ip
  simp only [exMesh, List.mem_cons, List.not_mem_nil, or_false] at hb
  rcases hb with rfl | rfl
  · exact exFace_unity _ ip
  · exact exFace_unity _ ip

theorem exAbsorbing {s : ℚ} (hs : 0 ≤ s) (src G b0 b1 : ℚ) : Absorbing (exMesh s src G b0 b1) := by
  intro m
  simp only [exMesh]
  constructor <;> [linarith; norm_num]

/-- Intensities of the two ordinates for cold medium, intensity 2 at the left wall, 1 at the right wall. -/
def exSol : Fin 2 → Fin 2 → ℚ := ![![4 / 3, 8 / 9], ![4 / 9, 2 / 3]]

/-- The hypotheses of C100 and C101 are met: the assembled equations of both ordinates hold. -/
theorem exSolved (k m : Fin 2) :
    (assembleWorks (edgeWorks true 1 (exDir k) ((exMesh 0 0 0 2 1).withG fun _ => 0) Finset.univ.toList) (exSol k)).rhs m
      = 0 := by
  rw [upw_row 1 (exDir k) ((exMesh 0 0 0 2 1).withG fun _ => 0) (exClosed 0 0 0 2 1) (exShifted 0 0 0 2 1)]
  fin_cases k <;> fin_cases m <;>
    simp [exMesh, exWall, exFace, exDir, exSol, EdgeMesh.withG, gain, sDot] <;> norm_num

/-- C100 applied to it. -/
example : ∀ m, 0 ≤ exSol 0 m ∧ exSol 0 m ≤ 2 := by
  intro m
  constructor
  · exact c100_nonneg (pi := 1) one_pos (exDir 0) ((exMesh 0 0 0 2 1).withG fun _ => 0) (exClosed 0 0 0 2 1)
      (exShifted 0 0 0 2 1) (exAbsorbing le_rfl 0 0 2 1) (exSol 0) (exSolved 0)
      (fun m _ => by fin_cases m <;> simp [exMesh, EdgeMesh.withG]) (fun m => by simp [exMesh, EdgeMesh.withG]) m
  · exact c100_upper 1 (exDir 0) ((exMesh 0 0 0 2 1).withG fun _ => 0) (exClosed 0 0 0 2 1)
      (exShifted 0 0 0 2 1) (exAbsorbing le_rfl 0 0 2 1) (exSol 0) (exSolved 0) 2
      (fun m _ => by fin_cases m <;> simp [exMesh, EdgeMesh.withG])
      (fun m => by simp [exMesh, EdgeMesh.withG, gain]) m

/-- C101 applied to it (weights two, so that they add up to four times `pi = 1`): absorbed power equals net power through
the walls, and it is not zero. -/
example : ∑ m, divFlux 0 1 0 (∑ k, 2 * exSol k m) * (1 / 2) =
    ∑ k, 2 * wallOut (exDir k) (exMesh 0 0 0 2 1).walls (exMesh 0 0 0 2 1).bc (exSol k) ∧
    ∑ m, divFlux 0 1 0 (∑ k, 2 * exSol k m) * (1 / 2 : ℚ) ≠ 0 := by
  constructor
  · exact c101_energy_balance_partial true (pi := 1) one_ne_zero 0 (exMesh 0 0 0 2 1) (fun _ => 0)
      (fun m => by simp [exMesh, radiationSource]) (fun _ => 2) exDir (by norm_num) exSol (fun _ _ => 0) exSolved
      (fun m => Or.inl rfl)
  · simp [divFlux, exSol]
    norm_num

/-- C99 applied to the slab with scattering: intensity 3 everywhere. -/
example (upw : Bool) (k m : Fin 2) :
    (assembleWorks (edgeWorks upw 1 (exDir k) (exMesh 1 3 12 3 3) Finset.univ.toList) (fun _ => 3)).rhs m = 0 :=
  c99_edge_equilibrium_partial upw one_ne_zero (exDir k) _ _ (exClosed _ _ _ _ _)
    (fun m => by simp [exMesh, Equilibrium]; norm_num) (fun m => by fin_cases m <;> simp [exMesh]) (exUnity _ _ _ _ _) m

/-- The finding of C99 is not vacuous: an exact solver exists for the slab and its sweep misses the equilibrium. -/
theorem exSolver_exists : ∃ solve : Fin 2 → State (Fin 2) 1 2 ℚ → Fin 2 → ℚ, ∀ k st m,
    (assembleWorks (edgeWorks true 1 (exDir k) ((exMesh 1 3 12 3 3).withG st.G) Finset.univ.toList) (solve k st)).rhs m
      = 0 := by
  refine ⟨fun k st => if k = 0 then
      ![(3 + (3 + st.G 0 / 4) / 2) / 2, ((3 + (3 + st.G 0 / 4) / 2) / 2 + (3 + st.G 1 / 4) / 2) / 2]
    else ![((3 + (3 + st.G 1 / 4) / 2) / 2 + (3 + st.G 0 / 4) / 2) / 2, (3 + (3 + st.G 1 / 4) / 2) / 2],
    fun k st m => ?_⟩
  rw [upw_row 1 (exDir k) ((exMesh 1 3 12 3 3).withG st.G) (exClosed 1 3 12 3 3) (exShifted 1 3 12 3 3)]
  fin_cases k <;> fin_cases m <;>
    simp [exMesh, exWall, exFace, exDir, EdgeMesh.withG, gain, sDot] <;> ring

example : ∃ solve : Fin 2 → State (Fin 2) 1 2 ℚ → Fin 2 → ℚ, ∀ st,
    (sweep (exMesh 1 3 12 3 3).walls (fun _ => 2) exDir solve st).I ≠ fun _ _ => 3 := by
  obtain ⟨solve, h⟩ := exSolver_exists
  exact ⟨solve, fun st => c99_scattering_not_equilibrium true (pi := 1) (Ib := 3) one_ne_zero (by norm_num)
    (exMesh 1 3 12 3 3) (fun _ => 2) exDir (exClosed _ _ _ _ _) (fun m => by simp [exMesh])
    (fun m => by fin_cases m <;> simp [exMesh]) (exUnity _ _ _ _ _) solve h (by simp [exMesh]) st⟩

/-- C102 with numbers: irradiation of a black body at wall temperature 2. -/
example : (heatCondIrrad (1 : ℚ) (exFace 3) (fun _ => 3) (fun _ => 1 * 2 ^ 4) (fun _ => 1 / 2) (fun _ => 2)
    ⟨fun _ _ => 0, fun _ => 5⟩).rhs 0 = 5 :=
  c102_wall_equilibrium (1 : ℚ) (exFace 3) (exFace_unity 3) (fun _ => 3) (fun _ => 1 / 2) 2 ⟨fun _ _ => 0, fun _ => 5⟩ 0

end Nalu.Rad
