/-
  C63. Collapse of an edge of a tetrahedral mesh (`MMG5_colver`): the theorems and concrete cases.
-/
import Verif.ColverProps

namespace Mmg.Colver

open Mmg.Split3 Mmg.Swap23 Mmg.Shell

/-! ## C63 -/

section
variable {tref : Nat → Int} {used : Nat → Prop} {p q : Nat} {s : St}
variable (hm : Mesh s.A s.V used) (hnt : NoTwins s.A s.V used) (hfc : FaceOK tref used s)
variable (hsl : Slots used s) {l : List Nat} {indq : Nat} {room : Nat → Bool}
variable (hl : IsBall s.V used p l) (hne : l ≠ [])
variable (hq : (s.V (l.headD 0 / 4)).getD indq 0 = q) (hpq : p ≠ q)
include hm hnt hfc hsl hl hne hq hpq

/-- **C63.** No assertion fails. The collapse is refused exactly when a tetrahedron that would stay
has, in front of `p`, a neighbour whose opposite vertex is `q` (it would become that neighbour); it
stops otherwise only when the allocator fails. -/
theorem C63_safe :
    colver tref room l indq s ≠ .asrt ∧
    (colver tref room l indq s = .refused ↔
      ∃ k, used k ∧ p ∈ s.V k ∧ q ∉ s.V k ∧ ∃ f < 4, (s.V k).getD f 0 = p ∧ link s.A k f ≠ 0 ∧
        (s.V (link s.A k f / 4)).getD (link s.A k f % 4) 0 = q) ∧
    (colver tref room l indq s = .nomem → ∃ n, room n = false) := by
  have h := colver_spec hm hnt hfc hsl (room := room) hl hne hq hpq
  have conv : (∃ k, used k ∧ p ∈ s.V k ∧ q ∉ s.V k ∧ ∃ f < 4, (s.V k).getD f 0 = p ∧
      link s.A k f ≠ 0 ∧ (s.V (link s.A k f / 4)).getD (link s.A k f % 4) 0 = q) ↔
      ∃ k, used k ∧ p ∈ s.V k ∧ q ∉ s.V k ∧ link s.A k (idx (s.V k) p) ≠ 0 ∧
        (s.V (link s.A k (idx (s.V k) p) / 4)).getD (link s.A k (idx (s.V k) p) % 4) 0 = q := by
    constructor
    · rintro ⟨k, h1, h2, h3, f, h4, h5, h6, h7⟩
      have := idx_eq (hm.len _ h1) (hm.nd _ h1) h4 h5
      refine ⟨k, h1, h2, h3, ?_⟩
      rw [this]
      exact ⟨h6, h7⟩
    · rintro ⟨k, h1, h2, h3, h4, h5⟩
      exact ⟨k, h1, h2, h3, _, idx_lt (hm.len _ h1) h2, idx_get (hm.len _ h1) h2, h4, h5⟩
  rw [conv]
  revert h
  generalize colver tref room l indq s = R
  intro h
  match R, h with
  | .refused, h =>
    exact ⟨(by intro hc; cases hc), ⟨fun _ => h, fun _ => rfl⟩, by intro hc; cases hc⟩
  | .nomem, h =>
    refine ⟨(by intro hc; cases hc), ⟨(by intro hc; cases hc), ?_⟩, fun _ => h.1⟩
    rintro ⟨k, h1, h2, h3, h4, h5⟩
    exact absurd h5 (h.2 k h1 h2 h3 h4)
  | .done np s', h =>
    refine ⟨(by intro hc; cases hc), ⟨(by intro hc; cases hc), ?_⟩, (by intro hc; cases hc)⟩
    rintro ⟨k, h1, h2, h3, h4, h5⟩
    exact absurd h5 (h.2.1 k h1 h2 h3 h4)

variable {np : Nat} {s' : St} (h : colver tref room l indq s = .done np s')
include h

/-- **C63.** After the collapse the tetrahedra around the edge are deleted, `p` is replaced by `q` in
the other ones, no tetrahedron has `p` any more, and the mesh is valid: the adjacency is symmetric,
linked faces have the same vertices, the vertices of a tetrahedron are different. The deleted
tetrahedra have no boundary record any more; the unused ones are not changed. -/
theorem C63_mesh :
    np = p ∧ Mesh s'.A s'.V (O s.V used p q) ∧
    (∀ k, O s.V used p q k → s'.V k = (s.V k).map fun a => if a = p then q else a) ∧
    (∀ k, O s.V used p q k → p ∉ s'.V k) ∧
    (∀ k, D s.V used p q k → s'.V k = [0, 0, 0, 0] ∧ s'.xt k = 0) ∧
    (∀ k, ¬ used k → s'.V k = s.V k ∧ s'.xt k = s.xt k) := by
  have hs := colver_spec hm hnt hfc hsl (room := room) hl hne hq hpq
  rw [h] at hs
  obtain ⟨h1, h2, s1, hI, hA, hx, hR, ht, hV1, hV2, hX1, hX2⟩ := hs
  refine ⟨h1, final_mesh hm hnt hpq hI hA hV2, hV2, ?_, ?_, ?_⟩
  · intro k hk hc
    rw [hV2 k hk] at hc
    unfold moved at hc
    obtain ⟨a, _, ha⟩ := List.mem_map.1 hc
    by_cases hap : a = p
    · rw [if_pos hap] at ha; exact hpq ha.symm
    · rw [if_neg hap] at ha; exact hap ha
  · intro k hk
    rw [hV1 k (fun hO => hO.2 hk)]
    exact ⟨hI.gone k hk (by simp), hX1 k hk⟩
  · intro k hk
    rw [hV1 k (fun hO => hk hO.1)]
    exact ⟨hI.unused k hk, hX2 k hk⟩

/-- **C63.** The boundary data of the faces stays right and no two tetrahedra share a record. -/
theorem C63_faces : FaceOK tref (O s.V used p q) s' ∧ Slots (O s.V used p q) s' := by
  have hs := colver_spec hm hnt hfc hsl (room := room) hl hne hq hpq
  rw [h] at hs
  obtain ⟨h1, h2, s1, hI, hA, hx, hR, ht, hV1, hV2, hX1, hX2⟩ := hs
  have hfd : ∀ k f, fd s' k f = fd s1 k f := by intro k f; unfold fd; rw [hx, hR]
  have hor : ∀ k f, ori s' k f = ori s1 k f := by intro k f; unfold ori; rw [hx, hR]
  constructor
  · have hF := final_faces hm hnt hpq hfc hI
    refine ⟨?_, ?_, ?_, ?_, ?_⟩
    · intro k hk f hf; rw [hfd]; exact hF.nonneg k hk f hf
    · intro k hk f hf h0; rw [hA] at h0 ⊢; rw [hfd, hfd]; exact hF.sides k hk f hf h0
    · intro k hk f hf h0; rw [hA] at h0; rw [hfd, hor]; exact hF.outer k hk f hf h0
    · intro k hk f hf h0 hne; rw [hA] at h0 hne; rw [hfd]; exact hF.diff k hk f hf h0 hne
    · intro k hk f hf h0; rw [hA] at h0 ⊢; rw [hor]; exact hF.ori k hk f hf h0
  · refine ⟨?_, ?_⟩
    · intro i j hi hj h0 he
      rw [hx] at h0 he
      exact hI.slots.1 i j (.inl hi) (.inl hj) h0 he
    · intro i hi
      rw [hx, ht]
      exact hI.slots.2 i (.inl hi)

/-- **C63.** Where the data of a face comes from. For a deleted tetrahedron `e`, `fp` and `fq` are its
faces in front of `p` and `q`: the neighbour by `fq` (it had `p`) gets the union of the tags of the two
faces and the larger reference; so does the neighbour by `fp`, but when there is no neighbour by `fq`
it gets the data of `fq`. The two neighbours are linked. All the other faces keep their data and
links. -/
theorem C63_data :
    (∀ e, D s.V used p q e → ∀ fp < 4, ∀ fq < 4, (s.V e).getD fp 0 = p → (s.V e).getD fq 0 = q →
      (link s.A e fq ≠ 0 →
        fd s' (link s.A e fq / 4) (link s.A e fq % 4) = merge (fd s e fq) (fd s e fp) ∧
        link s'.A (link s.A e fq / 4) (link s.A e fq % 4) = link s.A e fp) ∧
      (link s.A e fp ≠ 0 →
        fd s' (link s.A e fp / 4) (link s.A e fp % 4) =
          (if link s.A e fq = 0 then fd s e fq else merge (fd s e fp) (fd s e fq)) ∧
        link s'.A (link s.A e fp / 4) (link s.A e fp % 4) = link s.A e fq)) ∧
    (∀ k, O s.V used p q k → ∀ f < 4, (link s.A k f = 0 ∨ O s.V used p q (link s.A k f / 4)) →
      fd s' k f = fd s k f ∧ link s'.A k f = link s.A k f) := by
  have hs := colver_spec hm hnt hfc hsl (room := room) hl hne hq hpq
  rw [h] at hs
  obtain ⟨h1, h2, s1, hI, hA, hx, hR, ht, hV1, hV2, hX1, hX2⟩ := hs
  have hfd : ∀ k f, fd s' k f = fd s1 k f := by intro k f; unfold fd; rw [hx, hR]
  constructor
  · intro e he fp hfp fq hfq hp' hq'
    have ip := idx_eq (hm.len _ he.1) (hm.nd _ he.1) hfp hp'
    have iq := idx_eq (hm.len _ he.1) (hm.nd _ he.1) hfq hq'
    have hne' := shell_ne hm hnt hpq he
    have he1 := hm.adj.pos e he.1
    have h44 : ∀ x, x % 4 < 4 := fun x => Nat.mod_lt _ (by decide)
    constructor
    · intro h0
      obtain ⟨g1, g2⟩ := glued_p hm hnt hpq he (P := link s.A e fq) (Q := link s.A e fp)
        (by rw [iq]) (by rw [ip]) h0
      have hO := (shell_q hm hnt hpq he (by rw [iq]; exact h0)).1
      rw [iq] at hO g1
      have hc : Cond used p q s [] (link s.A e fq / 4) (link s.A e fq % 4) := by
        refine ⟨by rw [g1]; omega, ?_, by simp⟩
        rw [g1, show (4 * e + fq) / 4 = e by omega]; exact he
      rw [hfd, hI.dataG _ hO _ (h44 _) hc, hA, hI.linkG _ hO _ (h44 _) hc, g2]
      refine ⟨?_, rfl⟩
      unfold val
      rw [g1, show (4 * e + fq) / 4 = e by omega, show (4 * e + fq) % 4 = fq by omega]
      unfold other
      simp only
      rw [ip, iq]
      have hne2 : fq ≠ fp := by rw [← ip, ← iq]; exact hne'.symm
      simp only [if_neg hne2]
      rw [if_neg (fun hc => hne2 hc.1)]
    · intro h0
      obtain ⟨g1, g2⟩ := glued_q hm hnt hpq he (P := link s.A e fq) (Q := link s.A e fp)
        (by rw [iq]) (by rw [ip]) h0
      have hO := (shell_p hm hnt hpq he (by rw [ip]; exact h0)).1
      rw [ip] at hO g1
      have hc : Cond used p q s [] (link s.A e fp / 4) (link s.A e fp % 4) := by
        refine ⟨by rw [g1]; omega, ?_, by simp⟩
        rw [g1, show (4 * e + fp) / 4 = e by omega]; exact he
      rw [hfd, hI.dataG _ hO _ (h44 _) hc, hA, hI.linkG _ hO _ (h44 _) hc, g2]
      refine ⟨?_, rfl⟩
      unfold val
      rw [g1, show (4 * e + fp) / 4 = e by omega, show (4 * e + fp) % 4 = fp by omega]
      unfold other
      simp only
      rw [ip, iq, if_pos rfl]
      by_cases h3 : link s.A e fq = 0
      · rw [if_pos ⟨rfl, h3⟩, if_pos h3]
      · rw [if_neg (fun hc => h3 hc.2), if_neg h3]
  · intro k hk f hf hcase
    have hc : ¬ Cond used p q s [] k f := by
      rintro ⟨c1, c2, _⟩
      rcases hcase with h3 | h3
      · exact c1 h3
      · exact h3.2 c2
    rw [hfd, hA]
    exact ⟨hI.dataN k hk f hf hc, hI.linkN k hk f hf hc⟩

/-- **C63.** When all the faces with the same vertices were linked, no tetrahedron becomes the same
as one of its neighbours. -/
theorem C63_twins (hcm : Complete s.A s.V used) : NoTwins s'.A s'.V (O s.V used p q) := by
  have hs := colver_spec hm hnt hfc hsl (room := room) hl hne hq hpq
  rw [h] at hs
  obtain ⟨h1, h2, s1, hI, hA, hx, hR, ht, hV1, hV2, hX1, hX2⟩ := hs
  exact final_twins hm hnt hpq hcm hI hA hV2 h2

end

/-! ### Concrete cases

Three tetrahedra in a row: 2 = (1 5 3 4), 1 = (1 2 3 4), 3 = (6 2 3 4); vertex 1 is merged into
vertex 2, tetrahedron 1 disappears. -/

namespace Ex

def V3 : Nat → List Nat
  | 1 => [1, 2, 3, 4] | 2 => [1, 5, 3, 4] | 3 => [6, 2, 3, 4] | _ => []

def A3 : Nat → Nat
  | 1 => 4 * 3 + 0 | 2 => 4 * 2 + 1 | 6 => 4 * 1 + 1 | 9 => 4 * 1 + 0 | _ => 0

/-- Every tetrahedron has a record; the outer faces have reference 3; the face between 1 and 3 has
reference `r`, the face between 1 and 2 is not a boundary face. -/
def R3 (r : Int) : Nat → Rec
  | 1 => ⟨fun f => if f = 0 then r else if f = 1 then 0 else 3, fun f => if f = 1 then 0 else 16,
      fun _ => true⟩
  | 2 => ⟨fun f => if f = 1 then 0 else 3, fun f => if f = 1 then 0 else 16, fun _ => true⟩
  | _ => ⟨fun f => if f = 0 then r else 3, fun _ => 16, fun f => f ≠ 0⟩

def s3 (r : Int) : St := ⟨A3, V3, fun k => k, R3 r, 3⟩

/-- Tetrahedron 3 has another reference. -/
def tr : Nat → Int | 3 => 1 | _ => 2

def U3 (k : Nat) : Prop := 1 ≤ k ∧ k ≤ 3

theorem mesh3 : Mesh A3 V3 U3 := by
  refine ⟨⟨fun k h => h.1, ?_⟩, ?_, ?_⟩
  · rintro k ⟨h1, h2⟩ f hf hl
    interval_cases k <;> interval_cases f <;>
      first | exact absurd rfl hl | exact ⟨⟨by decide, by decide⟩, by decide, by decide, by decide⟩
  · rintro k ⟨h1, h2⟩; interval_cases k <;> rfl
  · rintro k ⟨h1, h2⟩; interval_cases k <;> (decide)

theorem twins3 : NoTwins A3 V3 U3 := by
  rintro k ⟨h1, h2⟩ f hf hl
  interval_cases k <;> interval_cases f <;>
    first | exact absurd rfl hl | (decide)

theorem slots3 (r : Int) : Slots U3 (s3 r) := ⟨fun _ _ _ _ _ h => h, fun _ h => h.2⟩

theorem ball3 : IsBall V3 U3 1 [4, 8] := by
  refine ⟨by decide, ?_, ?_⟩
  · intro x hx
    simp only [List.mem_cons, List.not_mem_nil, or_false] at hx
    rcases hx with rfl | rfl <;> exact ⟨⟨by decide, by decide⟩, rfl⟩
  · rintro k ⟨h1, h2⟩ hk
    interval_cases k
    · decide
    · decide
    · exact absurd hk (by decide)

theorem b16 : bdy 16 = true := by decide

/-- The data is right, but for the sign of the reference. -/
theorem faces3 (r : Int) : (0 ≤ r → ∀ k, U3 k → ∀ f < 4, 0 ≤ (fd (s3 r) k f).1) ∧
    (∀ k, U3 k → ∀ f < 4, link A3 k f ≠ 0 →
      fd (s3 r) (link A3 k f / 4) (link A3 k f % 4) = fd (s3 r) k f) ∧
    (∀ k, U3 k → ∀ f < 4, link A3 k f = 0 →
      bdy (fd (s3 r) k f).2 = true ∧ ori (s3 r) k f = true) ∧
    (∀ k, U3 k → ∀ f < 4, link A3 k f ≠ 0 → tr k ≠ tr (link A3 k f / 4) →
      bdy (fd (s3 r) k f).2 = true) ∧
    (∀ k, U3 k → ∀ f < 4, link A3 k f ≠ 0 →
      (tr (link A3 k f / 4) < tr k → ori (s3 r) k f = true) ∧
      (tr k < tr (link A3 k f / 4) → ori (s3 r) k f = false)) := by
  refine ⟨?_, ?_, ?_, ?_, ?_⟩
  · rintro hr k ⟨h1, h2⟩ f hf
    interval_cases k <;> interval_cases f <;> simp [fd, s3, R3, hr]
  · rintro k ⟨h1, h2⟩ f hf hl
    interval_cases k <;> interval_cases f <;> first | exact absurd rfl hl | rfl
  · rintro k ⟨h1, h2⟩ f hf hl
    interval_cases k <;> interval_cases f <;>
      first | exact absurd hl (by decide) | exact ⟨b16, rfl⟩
  · rintro k ⟨h1, h2⟩ f hf hl hne
    interval_cases k <;> interval_cases f <;>
      first | exact absurd rfl hl | exact absurd rfl hne | exact b16
  · rintro k ⟨h1, h2⟩ f hf hl
    interval_cases k <;> interval_cases f <;>
      first
      | exact absurd rfl hl
      | exact ⟨fun _ => rfl, fun h => absurd h (by decide)⟩
      | exact ⟨fun h => absurd h (by decide), fun _ => rfl⟩

theorem faceOK3 {r : Int} (hr : 0 ≤ r) : FaceOK tr U3 (s3 r) :=
  let ⟨h1, h2, h3, h4, h5⟩ := faces3 r
  ⟨h1 hr, h2, h3, h4, h5⟩

def run (s : St) (l : List Nat) (indq k f : Nat) : Option (List Nat × Nat × (Int × Nat) × Bool) :=
  match colver tr (fun _ => true) l indq s with
  | .done _ s' => some (s'.V k, link s'.A k f, fd s' k f, ori s' k f)
  | _ => none

/-- The hypotheses of the theorems hold for this mesh (reference 7); the collapse links
tetrahedra 2 and 3 and both have the boundary face. -/
example : Mesh (s3 7).A (s3 7).V U3 ∧ NoTwins (s3 7).A (s3 7).V U3 ∧ FaceOK tr U3 (s3 7) ∧
    Slots U3 (s3 7) ∧ IsBall (s3 7).V U3 1 [4, 8] ∧
    run (s3 7) [4, 8] 1 2 1 = some ([2, 5, 3, 4], 12, (7, 16), true) ∧
    run (s3 7) [4, 8] 1 3 0 = some ([6, 2, 3, 4], 9, (7, 16), false) :=
  ⟨mesh3, twins3, faceOK3 (by decide), slots3 7, ball3, rfl, rfl⟩

/-- All faces with the same vertices are linked in this mesh. -/
example : Complete A3 V3 U3 := by
  rintro k k' ⟨h1, h2⟩ ⟨h3, h4⟩ f hf f' hf' hne he
  interval_cases k <;> interval_cases k' <;> interval_cases f <;> interval_cases f' <;>
    first
    | rfl
    | exact absurd rfl hne
    | exact absurd he (by decide)

/-- A negative reference of a face (`MMG3D_Set_triangle` accepts it) is replaced by 0: the merged face
comes from one boundary face of reference -5 and one face that is not on the boundary. All the other
hypotheses hold. -/
theorem C63_negative_ref :
    Mesh (s3 (-5)).A (s3 (-5)).V U3 ∧ NoTwins (s3 (-5)).A (s3 (-5)).V U3 ∧ Slots U3 (s3 (-5)) ∧
    IsBall (s3 (-5)).V U3 1 [4, 8] ∧ fd (s3 (-5)) 1 0 = (-5, 16) ∧ fd (s3 (-5)) 1 1 = (0, 0) ∧
    run (s3 (-5)) [4, 8] 1 2 1 = some ([2, 5, 3, 4], 12, (0, 16), true) ∧
    run (s3 (-5)) [4, 8] 1 3 0 = some ([6, 2, 3, 4], 9, (0, 16), false) :=
  ⟨mesh3, twins3, slots3 _, ball3, rfl, rfl, rfl, rfl⟩

/-! Two tetrahedra: 1 = (1 2 3 4), 2 = (6 2 3 4); the common face is a required boundary face. -/

def V2 : Nat → List Nat
  | 1 => [1, 2, 3, 4] | 2 => [6, 2, 3, 4] | _ => []

def A2 : Nat → Nat
  | 1 => 4 * 2 + 0 | 5 => 4 * 1 + 0 | _ => 0

def s2 : St := ⟨A2, V2, fun k => k,
  fun _ => ⟨fun f => if f = 0 then 7 else 3, fun f => if f = 0 then 20 else 16, fun _ => true⟩, 2⟩

def U2 (k : Nat) : Prop := 1 ≤ k ∧ k ≤ 2

/-- When the face with `p` is on the outside, the merged face keeps neither the required tag nor the
larger reference of the inner face. -/
theorem C63_inner_lost :
    Mesh s2.A s2.V U2 ∧ NoTwins s2.A s2.V U2 ∧ FaceOK (fun _ => 2) U2 s2 ∧ Slots U2 s2 ∧
    IsBall s2.V U2 1 [4] ∧
    fd s2 1 0 = (7, 16 + 4) ∧ fd s2 1 1 = (3, 16) ∧
    (match colver (fun _ => 2) (fun _ => true) [4] 1 s2 with
      | .done _ s' => some (link s'.A 2 0, fd s' 2 0) | _ => none) = some (0, (3, 16)) := by
  refine ⟨⟨⟨fun k h => h.1, ?_⟩, ?_, ?_⟩, ?_, ⟨?_, ?_, ?_, ?_, ?_⟩,
    ⟨fun _ _ _ _ _ h => h, fun _ h => h.2⟩, ⟨by decide, ?_, ?_⟩, rfl, rfl, rfl⟩
  · rintro k ⟨h1, h2⟩ f hf hl
    interval_cases k <;> interval_cases f <;>
      first | exact absurd rfl hl | exact ⟨⟨by decide, by decide⟩, by decide, by decide, by decide⟩
  · rintro k ⟨h1, h2⟩; interval_cases k <;> rfl
  · rintro k ⟨h1, h2⟩; interval_cases k <;> decide
  · rintro k ⟨h1, h2⟩ f hf hl
    interval_cases k <;> interval_cases f <;> first | exact absurd rfl hl | decide
  · rintro k ⟨h1, h2⟩ f hf
    interval_cases k <;> interval_cases f <;> simp [fd, s2]
  · rintro k ⟨h1, h2⟩ f hf hl
    interval_cases k <;> interval_cases f <;> first | exact absurd rfl hl | rfl
  · rintro k ⟨h1, h2⟩ f hf hl
    interval_cases k <;> interval_cases f <;>
      first | exact absurd hl (by decide) | exact ⟨b16, rfl⟩
  · rintro k ⟨h1, h2⟩ f hf hl hne
    exact absurd rfl hne
  · rintro k ⟨h1, h2⟩ f hf hl
    exact ⟨fun _ => rfl, fun h => absurd h (lt_irrefl _)⟩
  · intro x hx
    rw [List.mem_singleton] at hx
    subst hx
    exact ⟨⟨by decide, by decide⟩, rfl⟩
  · rintro k ⟨h1, h2⟩ hk
    interval_cases k
    · decide
    · exact absurd hk (by decide)

end Ex

end Mmg.Colver
