import Verif.Model.LoopZTK
import Verif.Spec.Arc
import Verif.Lemmas.Atan2
import Verif.Props.C81

/-! # C88: loops with arcs, prisms and pyramids in ZTK files -/

namespace Zeo
open ZTK Spec

private noncomputable def sg (b : Bool) : ℝ := if b then 1 else -1

private theorem sg_sq (b : Bool) : sg b * sg b = 1 := by cases b <;> simp [sg]

private theorem rot_quarter (d : Vec2 ℝ) (b : Bool) :
    d.rot (if b then Real.pi / 2 else -(Real.pi / 2)) = ⟨-(sg b * d.y), sg b * d.x⟩ := by
  cases b <;> simp [Vec2.rot, sg]

/-- The center. -/
private noncomputable def ctr (b : Bool) (v1 v2 : Vec2 ℝ) (h : ℝ) : Vec2 ℝ :=
  ⟨v1.x + (v2.x - v1.x) / 2 - sg b * h * (v2.y - v1.y), v1.y + (v2.y - v1.y) / 2 + sg b * h * (v2.x - v1.x)⟩

private theorem arcPoints_eq (b : Bool) (v1 v2 : Vec2 ℝ) (r : ℝ) (div n : ℤ)
    (h : ¬ r * r / (v2.sub v1).sqrNorm - 1/4 < 0) :
    arcPoints b v1 v2 r div n = some ((List.range n.toNat).map fun i : ℕ =>
      turnAbout (ctr b v1 v2 (Real.sqrt (r * r / (v2.sub v1).sqrNorm - 1/4)))
        ((v1.sub (ctr b v1 v2 (Real.sqrt (r * r / (v2.sub v1).sqrNorm - 1/4)))).angle
          (v2.sub (ctr b v1 v2 (Real.sqrt (r * r / (v2.sub v1).sqrNorm - 1/4)))) * (i + 1) / div) v1) := by
  unfold arcPoints
  rw [if_neg h, rot_quarter]
  have e : ((((⟨-(sg b * (v2.sub v1).y), sg b * (v2.sub v1).x⟩ : Vec2 ℝ).mul
      (Real.sqrt (r * r / (v2.sub v1).sqrNorm - 1/4))).cat (1/2) (v2.sub v1)).add v1) =
      ctr b v1 v2 (Real.sqrt (r * r / (v2.sub v1).sqrNorm - 1/4)) := by
    simp only [Vec2.add, Vec2.cat, Vec2.mul, ctr, Vec2.sub, Vec2.mk.injEq]
    constructor <;> ring
  dsimp only
  rw [e]
  congr 1
  refine List.map_congr_left fun i _ => ?_
  simp only [Vec2.add, Vec2.rot, Vec2.sub, turnAbout, Vec2.mk.injEq]
  constructor <;> ring

private theorem ctr_angle (b : Bool) (v1 v2 : Vec2 ℝ) (h R D : ℝ) (hh : 0 < h) (hD : 0 < D)
    (eD : (v2.x - v1.x) ^ 2 + (v2.y - v1.y) ^ 2 = D) (eR : D / 4 + h ^ 2 * D = R) :
    (v1.x - (ctr b v1 v2 h).x) ^ 2 + (v1.y - (ctr b v1 v2 h).y) ^ 2 = R ∧
    (∃ a, 0 < a ∧ a < Real.pi ∧
      (v1.sub (ctr b v1 v2 h)).angle (v2.sub (ctr b v1 v2 h)) = (if b then a else -a)) ∧
    turnAbout (ctr b v1 v2 h) ((v1.sub (ctr b v1 v2 h)).angle (v2.sub (ctr b v1 v2 h))) v1 = v2 := by
  have s := sg_sq b
  have ei : (v1.sub (ctr b v1 v2 h)).inner (v2.sub (ctr b v1 v2 h)) = h ^ 2 * D - D / 4 := by
    rw [← eD]; simp only [Vec2.inner, Vec2.sub, ctr]
    linear_combination h ^ 2 * ((v2.x - v1.x) ^ 2 + (v2.y - v1.y) ^ 2) * s
  have eo : (v1.sub (ctr b v1 v2 h)).outer (v2.sub (ctr b v1 v2 h)) = sg b * h * D := by
    rw [← eD]; simp only [Vec2.outer, Vec2.sub, ctr]; ring
  have hR : 0 < R := by rw [← eR]; positivity
  have hr : (v1.x - (ctr b v1 v2 h).x) ^ 2 + (v1.y - (ctr b v1 v2 h).y) ^ 2 = R := by
    rw [← eR, ← eD]; simp only [ctr]
    linear_combination h ^ 2 * ((v2.x - v1.x) ^ 2 + (v2.y - v1.y) ^ 2) * s
  have cs := atan2_cos_sin ((v1.sub (ctr b v1 v2 h)).inner (v2.sub (ctr b v1 v2 h)))
    ((v1.sub (ctr b v1 v2 h)).outer (v2.sub (ctr b v1 v2 h)))
  have hq : Real.sqrt ((v1.sub (ctr b v1 v2 h)).inner (v2.sub (ctr b v1 v2 h)) * (v1.sub (ctr b v1 v2 h)).inner (v2.sub (ctr b v1 v2 h)) +
      (v1.sub (ctr b v1 v2 h)).outer (v2.sub (ctr b v1 v2 h)) * (v1.sub (ctr b v1 v2 h)).outer (v2.sub (ctr b v1 v2 h))) = R := by
    rw [ei, eo, show (h ^ 2 * D - D / 4) * (h ^ 2 * D - D / 4) + sg b * h * D * (sg b * h * D) = R ^ 2 by
      rw [← eR]; linear_combination h ^ 2 * D ^ 2 * s]
    exact Real.sqrt_sq hR.le
  rw [hq] at cs
  refine ⟨hr, ?_, ?_⟩
  · cases b
    · refine ⟨-(v1.sub (ctr false v1 v2 h)).angle (v2.sub (ctr false v1 v2 h)), ?_, ?_, by simp⟩
      · have : (v1.sub (ctr false v1 v2 h)).angle (v2.sub (ctr false v1 v2 h)) < 0 := by
          unfold Vec2.angle atan2
          rw [Complex.arg_neg_iff]
          show (v1.sub (ctr false v1 v2 h)).outer (v2.sub (ctr false v1 v2 h)) < 0
          rw [eo]; simp only [sg]; norm_num; positivity
        linarith
      · have := (atan2_mem ((v1.sub (ctr false v1 v2 h)).inner (v2.sub (ctr false v1 v2 h)))
          ((v1.sub (ctr false v1 v2 h)).outer (v2.sub (ctr false v1 v2 h)))).1
        unfold Vec2.angle; linarith
    · have ho : 0 < (v1.sub (ctr true v1 v2 h)).outer (v2.sub (ctr true v1 v2 h)) := by
        rw [eo]; simp only [sg]; norm_num; positivity
      refine ⟨(v1.sub (ctr true v1 v2 h)).angle (v2.sub (ctr true v1 v2 h)), ?_, ?_, by simp⟩
      · refine lt_of_le_of_ne (atan2_nonneg ho.le) fun e0 => ?_
        have := cs.2
        unfold Vec2.angle at e0
        rw [← e0, Real.sin_zero] at this
        linarith
      · refine lt_of_le_of_ne (atan2_mem _ _).2 fun e0 => ?_
        have := cs.2
        unfold Vec2.angle at e0
        rw [e0, Real.sin_pi] at this
        linarith
  · have c1 : R * Real.cos ((v1.sub (ctr b v1 v2 h)).angle (v2.sub (ctr b v1 v2 h))) = h ^ 2 * D - D / 4 := by
      rw [← ei]; exact cs.1
    have c2 : R * Real.sin ((v1.sub (ctr b v1 v2 h)).angle (v2.sub (ctr b v1 v2 h))) = sg b * h * D := by
      rw [← eo]; exact cs.2
    generalize (v1.sub (ctr b v1 v2 h)).angle (v2.sub (ctr b v1 v2 h)) = a at *
    have : v2 = ⟨v2.x, v2.y⟩ := rfl
    rw [this]
    unfold turnAbout
    rw [Vec2.mk.injEq]
    constructor <;> apply mul_left_cancel₀ hR.ne'
    · simp only [ctr]
      linear_combination (-(v2.x - v1.x) / 2 + sg b * h * (v2.y - v1.y)) * c1 - (-(v2.y - v1.y) / 2 - sg b * h * (v2.x - v1.x)) * c2 -
        (-(v2.x - v1.x) / 2 - sg b * h * (v2.y - v1.y)) * eR + h ^ 2 * D * (v2.x - v1.x) * s
    · simp only [ctr]
      linear_combination (-(v2.x - v1.x) / 2 + sg b * h * (v2.y - v1.y)) * c2 + (-(v2.y - v1.y) / 2 - sg b * h * (v2.x - v1.x)) * c1 -
        (-(v2.y - v1.y) / 2 + sg b * h * (v2.x - v1.x)) * eR + h ^ 2 * D * (v2.y - v1.y) * s

private theorem arc_spec (b : Bool) (v1 v2 : Vec2 ℝ) (r : ℝ) (m : ℕ) (hm : 1 ≤ m) (hs : Spans v1 v2 r) :
    ∃ pts, IsArc b v1 v2 r m (pts ++ [v2]) ∧ arcPoints b v1 v2 r m m = some (pts ++ [v2]) ∧
      arcPoints b v1 v2 r m (m - 1) = some pts := by
  obtain ⟨hne, hlt⟩ := hs
  have eD : (v2.sub v1).sqrNorm = (v2.x - v1.x) ^ 2 + (v2.y - v1.y) ^ 2 := by
    simp only [Vec2.sqrNorm, Vec2.inner, Vec2.sub]; ring
  have hD : 0 < (v2.x - v1.x) ^ 2 + (v2.y - v1.y) ^ 2 := by
    refine lt_of_le_of_ne (by positivity) fun e => hne ?_
    have h1 : v2.x - v1.x = 0 := by nlinarith [sq_nonneg (v2.x - v1.x), sq_nonneg (v2.y - v1.y)]
    have h2 : v2.y - v1.y = 0 := by nlinarith [sq_nonneg (v2.x - v1.x), sq_nonneg (v2.y - v1.y)]
    cases v1; cases v2
    simp only [Vec2.mk.injEq] at *
    exact ⟨by linarith, by linarith⟩
  have hc : 0 < r * r / (v2.sub v1).sqrNorm - 1/4 := by
    rw [eD, sub_pos, lt_div_iff₀ hD]; nlinarith
  have e1 := arcPoints_eq b v1 v2 r m m hc.le.not_gt
  have e2 := arcPoints_eq b v1 v2 r m (m - 1) hc.le.not_gt
  have hR : ((v2.x - v1.x) ^ 2 + (v2.y - v1.y) ^ 2) / 4 +
      Real.sqrt (r * r / (v2.sub v1).sqrNorm - 1/4) ^ 2 * ((v2.x - v1.x) ^ 2 + (v2.y - v1.y) ^ 2) = r ^ 2 := by
    rw [Real.sq_sqrt hc.le, eD]; field_simp; ring
  obtain ⟨k1, ⟨a, a1, a2, ea⟩, k3⟩ := ctr_angle b v1 v2 _ _ _ (Real.sqrt_pos.2 hc) hD rfl hR
  rw [ea] at e1 e2 k3
  obtain ⟨n, rfl⟩ : ∃ n, m = n + 1 := ⟨m - 1, by omega⟩
  have hn : (((n + 1 : ℕ) : ℤ) - 1).toNat = n := by omega
  have hn' : (((n + 1 : ℕ) : ℤ)).toNat = n + 1 := by omega
  rw [hn] at e2
  rw [hn', List.range_succ, List.map_append, List.map_cons, List.map_nil] at e1
  have hl : turnAbout (ctr b v1 v2 (Real.sqrt (r * r / (v2.sub v1).sqrNorm - 1/4)))
      ((if b then a else -a) * ((n : ℝ) + 1) / ((n + 1 : ℕ) : ℤ)) v1 = v2 := by
    rw [show (if b then a else -a) * ((n : ℝ) + 1) / ((n + 1 : ℕ) : ℤ) = if b then a else -a by
      push_cast; field_simp]
    exact k3
  rw [hl] at e1
  refine ⟨_, ⟨_, a, a1, a2, k1, k3, ?_⟩, e1, e2⟩
  rw [List.range_succ, List.map_append, List.map_cons, List.map_nil]
  congr 1
  · refine List.map_congr_left fun i _ => ?_
    push_cast
    rw [mul_div_assoc (if b then a else -a)]
  · rw [show (if b then a else -a) * (((n : ℝ) + 1) / ((n + 1 : ℕ) : ℝ)) = if b then a else -a by
      push_cast; field_simp]
    rw [k3]

/-- The values of a piece in a file. -/
def Spec.pieceTok : Piece → List (Tok ℝ)
  | .pt p => [.num p.x, .num p.y]
  | .arc ccw r m v => [.word "arc", .word (if ccw then "ccw" else "cw"), .num r, .int m, .num v.x, .num v.y]
  | .close ccw r m => [.word "arc", .word (if ccw then "ccw" else "cw"), .num r, .int m]

private theorem arcDir_name (b : Bool) : arcDir (if b then "ccw" else "cw") = some b := by cases b <;> simp [arcDir]

private theorem arc_step (l0 : List (Vec2 ℝ)) (v1 v : Vec2 ℝ) (b : Bool) (r : ℝ) (m : ℤ) (vs : List (Tok ℝ)) (ps : List (Vec2 ℝ))
    (hm : m ≠ 0) (hne : v ≠ v1) (ea : arcPoints b v1 v r m m = some ps) :
    arcFromZTK (l0 ++ [v1]) (.word (if b then "ccw" else "cw") :: .num r :: .int m :: .num v.x :: .num v.y :: vs) =
      .ok (l0 ++ [v1] ++ ps, vs, true) := by
  obtain ⟨w, t, hw⟩ : ∃ w t, l0 ++ [v1] = w :: t := by cases l0 <;> simp
  have hv : (w :: t).getLastD w = v1 := by rw [← hw]; simp
  simp only [arcFromZTK, arcDir_name, dbl, int, if_neg hm]
  rw [hw]
  dsimp only
  rw [hv, if_neg hne, ea]

private theorem loop_aux (ps : List Piece) : ∀ (k : ℕ) (l : List (Vec2 ℝ)) (s : Option (Vec2 ℝ × Vec2 ℝ)),
    (match s with | none => l = [] | some (f, v) => l.head? = some f ∧ l.getLast? = some v) →
    Feasible s ps → (ps.flatMap pieceTok).length ≤ k →
    ∃ l', loopPoints k l (ps.flatMap pieceTok) = .ok l' ∧ Draws l ps l' := by
  induction ps with
  | nil => intro k l s _ _ _; exact ⟨l, by cases k <;> rfl, .nil l⟩
  | cons q ps ih =>
    intro k l s hs hf hk
    cases q with
    | pt p =>
      simp only [List.flatMap_cons, pieceTok, List.cons_append, List.nil_append, List.length_cons] at hk ⊢
      obtain ⟨k, rfl⟩ : ∃ j, k = j + 1 := ⟨k - 1, by omega⟩
      have : ∃ s', (match s' with
          | none => l ++ [p] = []
          | some (f, v) => (l ++ [p]).head? = some f ∧ (l ++ [p]).getLast? = some v) ∧ Feasible s' ps := by
        match s, hs, hf with
        | none, hs, hf => exact ⟨some (p, p), by rw [hs]; simp, hf⟩
        | some (f, v), hs, hf => exact ⟨some (f, p), by simp [hs.1], hf⟩
      obtain ⟨s', h1, h2⟩ := this
      obtain ⟨l', e, d⟩ := ih k (l ++ [p]) s' h1 h2 (by omega)
      refine ⟨l', ?_, .pt _ _ _ _ d⟩
      simp only [loopPoints, dbl]
      exact e
    | arc b r m v =>
      match s, hs, hf with
      | some (f, v1), hs, hf =>
        obtain ⟨hm, hsp, hf⟩ := hf
        simp only [List.flatMap_cons, pieceTok, List.cons_append, List.nil_append, List.length_cons] at hk ⊢
        obtain ⟨k, rfl⟩ : ∃ j, k = j + 1 := ⟨k - 1, by omega⟩
        obtain ⟨pts, ha, ea, -⟩ := arc_spec b v1 v r m hm hsp
        obtain ⟨hh, hl⟩ := hs
        obtain ⟨l0, rfl⟩ : ∃ l0, l = l0 ++ [v1] := by
          rw [List.getLast?_eq_some_iff] at hl; exact hl
        have h1 : (l0 ++ [v1] ++ (pts ++ [v])).head? = some f ∧ (l0 ++ [v1] ++ (pts ++ [v])).getLast? = some v := by
          refine ⟨?_, by rw [← List.append_assoc, List.getLast?_append]; rfl⟩
          rw [List.head?_append, hh]; rfl
        obtain ⟨l', e, d⟩ := ih k (l0 ++ [v1] ++ (pts ++ [v])) (some (f, v)) h1 hf (by omega)
        refine ⟨l', ?_, .arc _ _ _ _ _ _ _ _ _ ha d⟩
        have : arcFromZTK (l0 ++ [v1]) (.word (if b then "ccw" else "cw") :: .num r :: .int m :: .num v.x :: .num v.y :: ps.flatMap pieceTok) =
            .ok (l0 ++ [v1] ++ (pts ++ [v]), ps.flatMap pieceTok, true) := by
          exact arc_step l0 v1 v b r m _ _ (by omega) (Ne.symm hsp.1) ea
        simp only [loopPoints, if_true, this]
        exact e
    | close b r m =>
      match s, hs, hf with
      | some (f, v1), hs, hf =>
        obtain ⟨hm, hsp, rfl⟩ := hf
        simp only [List.flatMap_cons, List.flatMap_nil, pieceTok, List.cons_append, List.nil_append, List.length_cons] at hk ⊢
        obtain ⟨k, rfl⟩ : ∃ j, k = j + 1 := ⟨k - 1, by omega⟩
        obtain ⟨pts, ha, -, ea⟩ := arc_spec b v1 f r m hm hsp
        obtain ⟨hh, hl⟩ := hs
        refine ⟨l ++ pts, ?_, .close _ _ _ _ _ _ _ hh hl ha⟩
        have : arcFromZTK l [.word (if b then "ccw" else "cw"), .num r, .int m] = .ok (l ++ pts, [], true) := by
          have hm0 : (m : ℤ) ≠ 0 := by omega
          obtain ⟨w, t, rfl⟩ : ∃ w t, l = w :: t := by cases l <;> simp at hh ⊢
          have hv : (w :: t).getLastD w = v1 := by
            rw [List.getLastD_eq_getLast?, hl]; rfl
          have hw : w = f := by simpa using hh
          simp only [arcFromZTK, arcDir_name, dbl, int, if_neg hm0]
          rw [hv, hw, if_neg (Ne.symm hsp.1), ea]
        simp only [loopPoints, if_true, this]

/-- The name of an axis in a file. -/
def Spec.axisWord : Fin 3 → String := ![ "x", "y", "z" ]

private theorem axis_name (k : Fin 3) : mirrorAxis (axisWord k) = some k := by
  fin_cases k <;> simp [mirrorAxis, axisWord]

/-- `q` is the point `p` of the plane on which the coordinate `k` is `val`, the following axes in cyclic order being those
of the plane. -/
def Spec.OnPlane (k : Fin 3) (val : ℝ) (p : Vec2 ℝ) (q : Vec3 ℝ) : Prop :=
  q.toFin k = val ∧ q.toFin (k + 1) = p.x ∧ q.toFin (k + 2) = p.y

private theorem onPlane_spec (k : Fin 3) (val : ℝ) (p : Vec2 ℝ) : OnPlane k val p (onPlane k val p) := by
  fin_cases k <;> simp [OnPlane, onPlane, Vec3.setE, Vec3.toFin]

/-- **C88** (`loop` in a ZTK file, src/zeo_ph3d.c:539-633): a loop of points and arcs, every arc with a radius larger than
half of its chord and at least one division, is read as the points of the outline it describes, on the plane given: an
arc runs in the direction given, at the radius given, in equal steps, shorter than a half circle, and ends exactly at its
end point; an arc without an end point goes back to the first point, which is not repeated. -/
theorem C88_loop (k : Fin 3) (val : ℝ) (ps : List Piece) (h : Feasible none ps) :
    ∃ pts l, Draws [] ps pts ∧ List.Forall₂ (OnPlane k val) pts l ∧
      loopFromZTK (.word (axisWord k) :: .num val :: ps.flatMap pieceTok) = .ok l := by
  obtain ⟨l', e, d⟩ := loop_aux ps _ [] none rfl h le_rfl
  refine ⟨l', l'.map (onPlane k val), d, ?_, ?_⟩
  · rw [List.forall₂_map_right_iff]
    exact List.forall₂_same.2 fun p _ => onPlane_spec k val p
  · simp only [loopFromZTK, axis_name, dbl]
    rw [e]

/-- Non-vacuity: a half moon: from `(0,0)` to `(2,0)`, an arc to `(0,2)`, and an arc back. -/
example : Feasible none [.pt ⟨0, 0⟩, .pt ⟨2, 0⟩, .arc true 2 4 ⟨0, 2⟩, .close false 3 5] := by
  refine ⟨by norm_num, ⟨by simp, by norm_num⟩, by norm_num, ⟨by simp, by norm_num⟩, rfl⟩

/-- An arc of a radius below half of its chord (`r ≥ 0`) is not drawn, and neither is anything after it: what was read
before is the loop, and no error is returned. -/
theorem C88_arc_small (l : List (Vec2 ℝ)) (v1 v2 : Vec2 ℝ) (ccw : Bool) (r : ℝ) (m : ℤ) (rest : List (Tok ℝ)) (k : ℕ)
    (hv : v1 ≠ v2) (h : 4 * r ^ 2 < (v2.x - v1.x) ^ 2 + (v2.y - v1.y) ^ 2) :
    loopPoints (k + 1) (l ++ [v1])
      (.word "arc" :: .word (if ccw then "ccw" else "cw") :: .num r :: .int m :: .num v2.x :: .num v2.y :: rest) = .ok (l ++ [v1]) := by
  have eD : (v2.sub v1).sqrNorm = (v2.x - v1.x) ^ 2 + (v2.y - v1.y) ^ 2 := by
    simp only [Vec2.sqrNorm, Vec2.inner, Vec2.sub]; ring
  have hc : r * r / (v2.sub v1).sqrNorm - 1/4 < 0 := by
    have hD : 0 < (v2.x - v1.x) ^ 2 + (v2.y - v1.y) ^ 2 := lt_of_le_of_lt (by positivity) h
    rw [eD, sub_neg, div_lt_iff₀ hD]; nlinarith
  have : ∃ vs, arcFromZTK (l ++ [v1]) (.word (if ccw then "ccw" else "cw") :: .num r :: .int m :: .num v2.x :: .num v2.y :: rest) =
      .ok (l ++ [v1], vs, false) := by
    obtain ⟨w, t, hw⟩ : ∃ w t, l ++ [v1] = w :: t := by cases l <;> simp
    have hv1 : (w :: t).getLastD w = v1 := by rw [← hw]; simp
    simp only [arcFromZTK, arcDir_name, dbl, int]
    rw [hw]
    dsimp only
    split_ifs
    · exact ⟨_, rfl⟩
    · exact absurd (by rw [← hv1]; exact (‹_ = _› : _ = _).symm) hv
    · refine ⟨rest, ?_⟩
      have e : arcPoints ccw ((w :: t).getLastD w) v2 r m m = none := by
        rw [hv1]; unfold arcPoints; rw [if_pos hc]
      rw [e]
  obtain ⟨vs, e⟩ := this
  simp only [loopPoints, if_true, e]

/-- **Refuted**: an outline that cannot be drawn is reported.  This square with one side as an arc of too small a radius
is read as a triangle. -/
theorem C88_arc_small_false :
    loopFromZTK [.word "z", .num 0, .num 0, .num 0, .num 1, .num 0, .num 1, .num 1,
      .word "arc", .word "ccw", .num (1/4), .int 8, .num 0, .num 1, .num (-1), .num (1/2)] =
      .ok [⟨0, 0, 0⟩, ⟨1, 0, 0⟩, ⟨1, 1, 0⟩] := by
  have := C88_arc_small [⟨0, 0⟩, ⟨1, 0⟩] ⟨1, 1⟩ ⟨0, 1⟩ true (1/4) 8 [.num (-1), .num (1/2)] 10 (by simp) (by norm_num)
  simp only [loopFromZTK, mirrorAxis, dbl, List.length_cons, List.length_nil, loopPoints, List.nil_append, List.cons_append, if_true] at this ⊢
  simp only [show ("z" : String) ≠ "x" by decide, show ("z" : String) ≠ "y" by decide, if_false, if_true] at this ⊢
  rw [this]
  simp [onPlane, Vec3.setE, Vec3.zero]

/-- **Refuted**: the direction of an arc is the one given.  When the radius is half of the chord, an arc given as clockwise
has the points of the counterclockwise one. -/
theorem C88_arc_half (v1 v2 : Vec2 ℝ) (r : ℝ) (m n : ℤ) (hv : v1 ≠ v2) (h : 4 * r ^ 2 = (v2.x - v1.x) ^ 2 + (v2.y - v1.y) ^ 2) :
    arcPoints false v1 v2 r m n = arcPoints true v1 v2 r m n ∧
    arcPoints true v1 v2 r m n = some ((List.range n.toNat).map fun i : ℕ =>
      turnAbout ⟨(v1.x + v2.x) / 2, (v1.y + v2.y) / 2⟩ (Real.pi * (i + 1) / m) v1) := by
  have eD : (v2.sub v1).sqrNorm = (v2.x - v1.x) ^ 2 + (v2.y - v1.y) ^ 2 := by
    simp only [Vec2.sqrNorm, Vec2.inner, Vec2.sub]; ring
  have hD : 0 < (v2.x - v1.x) ^ 2 + (v2.y - v1.y) ^ 2 := by
    refine lt_of_le_of_ne (by positivity) fun e => hv ?_
    have h1 : v2.x - v1.x = 0 := by nlinarith [sq_nonneg (v2.x - v1.x), sq_nonneg (v2.y - v1.y)]
    have h2 : v2.y - v1.y = 0 := by nlinarith [sq_nonneg (v2.x - v1.x), sq_nonneg (v2.y - v1.y)]
    cases v1; cases v2
    simp only [Vec2.mk.injEq] at *
    exact ⟨by linarith, by linarith⟩
  have hc : r * r / (v2.sub v1).sqrNorm - 1/4 = 0 := by
    rw [eD]; field_simp; linarith
  have hb : ∀ b, arcPoints b v1 v2 r m n = some ((List.range n.toNat).map fun i : ℕ =>
      turnAbout ⟨(v1.x + v2.x) / 2, (v1.y + v2.y) / 2⟩ (Real.pi * (i + 1) / m) v1) := by
    intro b
    rw [arcPoints_eq b v1 v2 r m n (by rw [hc]; exact lt_irrefl _), hc, Real.sqrt_zero]
    have ec : ctr b v1 v2 0 = ⟨(v1.x + v2.x) / 2, (v1.y + v2.y) / 2⟩ := by
      simp only [ctr, Vec2.mk.injEq]; constructor <;> ring
    rw [ec]
    have ea : (v1.sub ⟨(v1.x + v2.x) / 2, (v1.y + v2.y) / 2⟩).angle (v2.sub ⟨(v1.x + v2.x) / 2, (v1.y + v2.y) / 2⟩) = Real.pi := by
      unfold Vec2.angle atan2
      have e1 : (v1.sub ⟨(v1.x + v2.x) / 2, (v1.y + v2.y) / 2⟩).outer (v2.sub ⟨(v1.x + v2.x) / 2, (v1.y + v2.y) / 2⟩) = 0 := by
        simp only [Vec2.outer, Vec2.sub]; ring
      have e2 : (v1.sub ⟨(v1.x + v2.x) / 2, (v1.y + v2.y) / 2⟩).inner (v2.sub ⟨(v1.x + v2.x) / 2, (v1.y + v2.y) / 2⟩) =
          -(((v2.x - v1.x) ^ 2 + (v2.y - v1.y) ^ 2) / 4) := by
        simp only [Vec2.inner, Vec2.sub]; ring
      rw [e1, e2]
      exact Complex.arg_ofReal_of_neg (by linarith)
    rw [ea]
  exact ⟨(hb false).trans (hb true).symm, hb true⟩

/-- The half circle from `(0,0)` to `(2,0)`, clockwise, should pass above the chord; the point read in its middle is
`(1,-1)`. -/
theorem C88_arc_half_false :
    loopFromZTK [.word "z", .num 0, .num 0, .num 0, .word "arc", .word "cw", .num 1, .int 2, .num 2, .num 0] =
      .ok [⟨0, 0, 0⟩, ⟨1, -1, 0⟩, ⟨2, 0, 0⟩] := by
  have h := C88_arc_half ⟨0, 0⟩ ⟨2, 0⟩ 1 2 2 (by simp) (by norm_num)
  rw [h.2] at h
  have h := h.1
  have h' := arc_step [] ⟨0, 0⟩ ⟨2, 0⟩ false 1 2 [] _ (by decide) (by simp) h
  simp only [loopFromZTK, mirrorAxis, dbl, List.length_cons, List.length_nil, loopPoints, if_true,
    show ("z" : String) ≠ "x" by decide, show ("z" : String) ≠ "y" by decide, if_false]
  simp only [Bool.false_eq_true, if_false] at h'
  rw [h']
  have e : Real.pi * (1 + 1) / 2 = Real.pi := by ring
  simp [onPlane, Vec3.setE, Vec3.zero, turnAbout, List.range_succ, loopPoints, e]
  norm_num

/-! ## Solids -/

private theorem ok_bind88 {α β ε : Type} (a : α) (f : α → Except ε β) : (Except.ok a >>= f) = f a := rfl

private theorem err_bind88 {α β ε : Type} (e : ε) (f : α → Except ε β) : ((Except.error e : Except ε α) >>= f) = .error e := rfl

private theorem sweep_run (τ : ℝ) (fs : List (KeyField ℝ)) (h : fs.any (fun f => f.1 = "prism" ∨ f.1 = "pyramid") = true)
    (hf : fs.countP (fun f => f.1 = "face") = 0) (n : ℕ) (hn : fs.countP (fun f => f.1 = "vert") = n) :
    sweepFromZTK τ fs = match fs.foldlM (evalField (sweepPrp τ)) (⟨⟨0, fun _ => .zero, []⟩, List.replicate n .zero⟩, fun _ => 0) with
      | .ok s => .ok s.1.ph
      | .error e => .error e := by
  subst hn
  have h0 : fs ≠ [] := by rintro rfl; simp at h
  unfold sweepFromZTK evalKeys
  dsimp only
  rw [if_neg h0, if_pos h, if_neg (by omega)]
  cases fs.foldlM (evalField (sweepPrp τ)) (⟨⟨0, fun _ => .zero, []⟩, List.replicate (fs.countP (fun f => f.1 = "vert")) .zero⟩, fun _ => 0) <;> rfl

private theorem find_loop (τ : ℝ) : (sweepPrp τ).find? (fun p => p.key = "loop") =
    some ⟨"loop", 1, fun s _ => store loopFromZTK (fun s l => { s with arr := l }) s, none⟩ := by
  simp [sweepPrp, List.find?]

private theorem find_prism (τ : ℝ) : (sweepPrp τ).find? (fun p => p.key = "prism") =
    some ⟨"prism", 1, fun s _ => sweepMake (Sweep.prism τ) s, none⟩ := by
  simp [sweepPrp, List.find?]

private theorem find_pyramid (τ : ℝ) : (sweepPrp τ).find? (fun p => p.key = "pyramid") =
    some ⟨"pyramid", 1, fun s _ => sweepMake (Sweep.pyramid τ) s, none⟩ := by
  simp [sweepPrp, List.find?]

private theorem find_vert (τ : ℝ) : (sweepPrp τ).find? (fun p => p.key = "vert") = some ⟨"vert", -1, sweepVert, none⟩ := by
  simp [sweepPrp, List.find?]

private theorem step_loop (τ : ℝ) (s : SweepState) (cnt : String → ℕ) (vs : List (Tok ℝ)) (l : List (Vec3 ℝ)) (hc : cnt "loop" = 0)
    (h : loopFromZTK vs = .ok l) :
    evalField (sweepPrp τ) (s, cnt) ("loop", vs) = .ok (⟨s.ph, l⟩, Function.update cnt "loop" 1) := by
  unfold evalField
  simp only [find_loop, hc, store, h]
  simp

private theorem step_prism (τ : ℝ) (s : SweepState) (cnt : String → ℕ) (v : Vec3 ℝ) (hc : cnt "prism" = 0)
    (h : s.ph.nv = 0 ∧ s.ph.face = []) :
    evalField (sweepPrp τ) (s, cnt) ("prism", [.group v.x v.y v.z]) = match made (Sweep.prism τ s.arr v) with
      | .ok ph => .ok (⟨ph, []⟩, Function.update cnt "prism" 1)
      | .error e => .error e := by
  unfold evalField
  simp only [find_prism, hc, sweepMake, h, vec]
  simp only [lt_irrefl, ne_eq, not_true, or_self, if_false]
  cases made (Sweep.prism τ s.arr v) <;> simp

private theorem step_pyramid (τ : ℝ) (s : SweepState) (cnt : String → ℕ) (v : Vec3 ℝ) (hc : cnt "pyramid" = 0)
    (h : s.ph.nv = 0 ∧ s.ph.face = []) :
    evalField (sweepPrp τ) (s, cnt) ("pyramid", [.group v.x v.y v.z]) = match made (Sweep.pyramid τ s.arr v) with
      | .ok ph => .ok (⟨ph, []⟩, Function.update cnt "pyramid" 1)
      | .error e => .error e := by
  unfold evalField
  simp only [find_pyramid, hc, sweepMake, h, vec]
  simp only [lt_irrefl, ne_eq, not_true, or_self, if_false]
  cases made (Sweep.pyramid τ s.arr v) <;> simp

/-- A solid defined already is kept. -/
private theorem step_kept (τ : ℝ) (s : SweepState) (cnt : String → ℕ) (k : String) (hk : k = "prism" ∨ k = "pyramid")
    (vs : List (Tok ℝ)) (h : 0 < s.ph.nv) :
    ∃ cnt', evalField (sweepPrp τ) (s, cnt) (k, vs) = .ok (s, cnt') := by
  unfold evalField
  rcases hk with rfl | rfl
  · simp only [find_prism, sweepMake, h, true_or, if_true]
    split_ifs <;> exact ⟨_, rfl⟩
  · simp only [find_pyramid, sweepMake, h, true_or, if_true]
    split_ifs <;> exact ⟨_, rfl⟩

private theorem prism_vert {τ : ℝ} {b : List (Vec3 ℝ)} {s : Vec3 ℝ} {ph : PH ℝ} (h : Sweep.prism τ b s = .ok ph) :
    ph.vert = Sweep.prismVert b s := by
  unfold Sweep.prism at h
  dsimp only at h
  split at h
  · exact absurd h (by simp)
  · split at h
    · exact absurd h (by simp)
    · simp only [Except.ok.injEq] at h
      rw [← h]

private theorem pyramid_vert {τ : ℝ} {b : List (Vec3 ℝ)} {s : Vec3 ℝ} {ph : PH ℝ} (h : Sweep.pyramid τ b s = .ok ph) :
    ph.vert = Sweep.pyramidVert b s := by
  unfold Sweep.pyramid at h
  dsimp only at h
  split at h
  · exact absurd h (by simp)
  · split at h
    · exact absurd h (by simp)
    · simp only [Except.ok.injEq] at h
      rw [← h]

/-- `ph` is a prism over the points `l`: its vertices are the points and the points moved by `s`, with the faces of a
closed surface in number. -/
def Spec.PrismOn (l : List (Vec3 ℝ)) (s : Vec3 ℝ) (ph : PH ℝ) : Prop :=
  ph.nv = 2 * l.length ∧ ph.face.length = 4 * (l.length - 1) ∧
    ∀ i (h : i < l.length), ph.vert i = l[i] ∧ (ph.vert (i + l.length)).toFin = l[i].toFin + s.toFin

/-- `ph` is a pyramid over the points `l`. -/
def Spec.PyramidOn (l : List (Vec3 ℝ)) (v : Vec3 ℝ) (ph : PH ℝ) : Prop :=
  ph.nv = l.length + 1 ∧ ph.face.length = 2 * (l.length - 1) ∧ ph.vert l.length = v ∧
    ∀ i (h : i < l.length), ph.vert i = l[i]

private theorem toFin_add88 (a b : Vec3 ℝ) : (a.add b).toFin = a.toFin + b.toFin := by
  ext i; fin_cases i <;> simp [Vec3.toFin, Vec3.add]

private theorem prism_on (τ : ℝ) (l : List (Vec3 ℝ)) (s : Vec3 ℝ) (hl : 3 ≤ l.length) :
    ∃ ph, Sweep.prism τ l s = .ok ph ∧ PrismOn l s ph := by
  obtain ⟨ph, e, h1, h2⟩ := (C81_prism_total τ l s).2 hl
  refine ⟨ph, e, h1, h2, fun i h => ?_⟩
  rw [prism_vert e]
  constructor
  · unfold Sweep.prismVert; rw [if_pos h]; simp [h]
  · unfold Sweep.prismVert; rw [if_neg (by omega), toFin_add88]; simp [h]

private theorem pyramid_on (τ : ℝ) (l : List (Vec3 ℝ)) (v : Vec3 ℝ) (hl : 3 ≤ l.length) :
    ∃ ph, Sweep.pyramid τ l v = .ok ph ∧ PyramidOn l v ph := by
  obtain ⟨ph, e, h1, h2⟩ := (C81_pyramid_total τ l v).2 hl
  refine ⟨ph, e, h1, h2, ?_, fun i h => ?_⟩
  · rw [pyramid_vert e]; unfold Sweep.pyramidVert; rw [if_neg (lt_irrefl _)]
  · rw [pyramid_vert e]; unfold Sweep.pyramidVert; rw [if_pos h]; simp [h]

/-- **C88** (`prism` and `pyramid` in a ZTK file): a loop of at least three points followed by a shift or an apex gives the
prism or the pyramid over the loop: what `zPH3DCreatePrism` and `zPH3DCreatePyramid` make of the points (C81), on the
vertices expected. -/
theorem C88_prism (τ : ℝ) (vs : List (Tok ℝ)) (l : List (Vec3 ℝ)) (s : Vec3 ℝ) (h : loopFromZTK vs = .ok l) (hl : 3 ≤ l.length) :
    (∃ ph, sweepFromZTK τ [("loop", vs), ("prism", [.group s.x s.y s.z])] = .ok ph ∧ Sweep.prism τ l s = .ok ph ∧ PrismOn l s ph) ∧
    (∃ ph, sweepFromZTK τ [("loop", vs), ("pyramid", [.group s.x s.y s.z])] = .ok ph ∧ Sweep.pyramid τ l s = .ok ph ∧
      PyramidOn l s ph) := by
  constructor
  · obtain ⟨ph, e, hp⟩ := prism_on τ l s hl
    refine ⟨ph, ?_, e, hp⟩
    rw [sweep_run τ _ (by simp) (by simp) 0 (by simp), List.foldlM_cons, step_loop τ _ _ vs l (by rfl) h, ok_bind88, List.foldlM_cons]
    rw [step_prism τ _ _ s (by simp) ⟨rfl, rfl⟩]
    simp [e, made]
  · obtain ⟨ph, e, hp⟩ := pyramid_on τ l s hl
    refine ⟨ph, ?_, e, hp⟩
    rw [sweep_run τ _ (by simp) (by simp) 0 (by simp), List.foldlM_cons, step_loop τ _ _ vs l (by rfl) h, ok_bind88, List.foldlM_cons]
    rw [step_pyramid τ _ _ s (by simp) ⟨rfl, rfl⟩]
    simp [e, made]

/-- The fields of the vertices of a base, in order. -/
def Spec.vertFields (l : List (Vec3 ℝ)) : List (KeyField ℝ) :=
  l.zipIdx.map fun v => ("vert", [.int v.2, .group v.1.x v.1.y v.1.z])

private theorem step_vert (τ : ℝ) (ph : PH ℝ) (a : List (Vec3 ℝ)) (cnt : String → ℕ) (j : ℤ) (v : Vec3 ℝ) (h : cnt "vert" < a.length) :
    evalField (sweepPrp τ) (⟨ph, a⟩, cnt) ("vert", [.int j, .group v.x v.y v.z]) =
      .ok (⟨ph, a.set (cnt "vert") v⟩, Function.update cnt "vert" (cnt "vert" + 1)) := by
  unfold evalField
  have h0 : a ≠ [] := by rintro rfl; simp at h
  simp only [find_vert, sweepVert, if_neg h0, int, vec, h, if_true]
  simp

private theorem fold_vert (τ : ℝ) (ph : PH ℝ) (l2 : List (Vec3 ℝ)) : ∀ (l1 : List (Vec3 ℝ)) (cnt : String → ℕ), cnt "vert" = l1.length →
    ∃ cnt', (∀ k, k ≠ "vert" → cnt' k = cnt k) ∧
      ((l2.zipIdx l1.length).map fun v : Vec3 ℝ × ℕ => (("vert", [.int v.2, .group v.1.x v.1.y v.1.z]) : KeyField ℝ)).foldlM (evalField (sweepPrp τ))
        (⟨ph, l1 ++ List.replicate l2.length .zero⟩, cnt) = .ok (⟨ph, l1 ++ l2⟩, cnt') := by
  induction l2 with
  | nil => intro l1 cnt _; exact ⟨cnt, fun _ _ => rfl, by simp; rfl⟩
  | cons v l2 ih =>
    intro l1 cnt hc
    obtain ⟨cnt', h1, h2⟩ := ih (l1 ++ [v]) (Function.update cnt "vert" (cnt "vert" + 1)) (by simp [hc])
    refine ⟨cnt', fun k hk => by rw [h1 k hk, Function.update_of_ne hk], ?_⟩
    rw [List.zipIdx_cons, List.map_cons, List.foldlM_cons, step_vert τ ph _ cnt _ v (by simp [hc]), ok_bind88, hc]
    rw [hc] at h2
    have e : (l1 ++ List.replicate (v :: l2).length Vec3.zero).set l1.length v = l1 ++ [v] ++ List.replicate l2.length Vec3.zero := by
      simp [List.replicate_succ]
    rw [e]
    simpa using h2

private theorem count_vert (l : List (Vec3 ℝ)) (k : String) (hk : k ≠ "vert") (v : List (Tok ℝ)) :
    (vertFields l ++ [(k, v)]).countP (fun f => f.1 = "vert") = l.length := by
  rw [List.countP_append, List.countP_eq_length.2]
  · simp [vertFields, hk]
  · intro f hf
    simp only [vertFields, List.mem_map] at hf
    obtain ⟨a, -, rfl⟩ := hf
    simp

private theorem count_face (l : List (Vec3 ℝ)) (k : String) (hk : k ≠ "face") (v : List (Tok ℝ)) :
    (vertFields l ++ [(k, v)]).countP (fun f => f.1 = "face") = 0 := by
  rw [List.countP_eq_zero]
  intro f hf
  simp only [vertFields, List.mem_append, List.mem_map, List.mem_singleton] at hf
  rcases hf with ⟨a, -, rfl⟩ | rfl <;> simp [hk]

/-- The same with the points given as vertices. -/
theorem C88_prism_verts (τ : ℝ) (l : List (Vec3 ℝ)) (s : Vec3 ℝ) (hl : 3 ≤ l.length) :
    (∃ ph, sweepFromZTK τ (vertFields l ++ [("prism", [.group s.x s.y s.z])]) = .ok ph ∧ Sweep.prism τ l s = .ok ph ∧ PrismOn l s ph) ∧
    (∃ ph, sweepFromZTK τ (vertFields l ++ [("pyramid", [.group s.x s.y s.z])]) = .ok ph ∧ Sweep.pyramid τ l s = .ok ph ∧
      PyramidOn l s ph) := by
  obtain ⟨cnt', h1, h2⟩ := fold_vert τ ⟨0, fun _ => .zero, []⟩ l [] (fun _ => 0) rfl
  simp only [List.nil_append, List.length_nil] at h2
  constructor
  · obtain ⟨ph, e, hp⟩ := prism_on τ l s hl
    refine ⟨ph, ?_, e, hp⟩
    rw [sweep_run τ _ (by simp) (count_face l "prism" (by decide) _) _ (count_vert l "prism" (by decide) _), List.foldlM_append]
    unfold vertFields
    rw [h2, ok_bind88]
    simp only [List.foldlM_cons]
    rw [step_prism τ _ _ s (by rw [h1 _ (by decide)]) ⟨rfl, rfl⟩]
    simp [e, made]
  · obtain ⟨ph, e, hp⟩ := pyramid_on τ l s hl
    refine ⟨ph, ?_, e, hp⟩
    rw [sweep_run τ _ (by simp) (count_face l "pyramid" (by decide) _) _ (count_vert l "pyramid" (by decide) _), List.foldlM_append]
    unfold vertFields
    rw [h2, ok_bind88]
    simp only [List.foldlM_cons]
    rw [step_pyramid τ _ _ s (by rw [h1 _ (by decide)]) ⟨rfl, rfl⟩]
    simp [e, made]

/-- Non-vacuity of `C88_prism`. -/
example : loopFromZTK [.word "z", .num 0, .num 0, .num 0, .num 1, .num 0, .num 0, .num 1] =
    .ok [⟨0, 0, 0⟩, ⟨1, 0, 0⟩, ⟨0, 1, 0⟩] := by
  simp [loopFromZTK, mirrorAxis, dbl, loopPoints, onPlane, Vec3.setE, Vec3.zero]

/-- Faces next to a prism or a pyramid: NULL. -/
theorem C88_face (τ : ℝ) (fs : List (KeyField ℝ)) (h : ∃ f ∈ fs, f.1 = "prism" ∨ f.1 = "pyramid") (hf : ∃ f ∈ fs, f.1 = "face") :
    sweepFromZTK τ fs = .error .null := by
  unfold sweepFromZTK
  obtain ⟨f, m, hf⟩ := hf
  obtain ⟨g, m', hg⟩ := h
  have h0 : fs ≠ [] := List.ne_nil_of_mem m
  have h1 : fs.any (fun f => f.1 = "prism" ∨ f.1 = "pyramid") = true := List.any_eq_true.2 ⟨g, m', by simpa using hg⟩
  have h2 : 0 < fs.countP (fun f => f.1 = "face") := List.countP_pos_iff.2 ⟨f, m, by simpa using hf⟩
  simp only [if_neg h0, h1, if_true, if_pos h2]

/-- A prism and a pyramid in one section: the first one is made, the other one is ignored. -/
theorem C88_both (τ : ℝ) (vs ws : List (Tok ℝ)) (l : List (Vec3 ℝ)) (s : Vec3 ℝ) (h : loopFromZTK vs = .ok l) (hl : 3 ≤ l.length) :
    sweepFromZTK τ [("loop", vs), ("prism", [.group s.x s.y s.z]), ("pyramid", ws)] =
      sweepFromZTK τ [("loop", vs), ("prism", [.group s.x s.y s.z])] ∧
    sweepFromZTK τ [("loop", vs), ("pyramid", [.group s.x s.y s.z]), ("prism", ws)] =
      sweepFromZTK τ [("loop", vs), ("pyramid", [.group s.x s.y s.z])] := by
  constructor
  · obtain ⟨ph, e, hp⟩ := prism_on τ l s hl
    have hn : 0 < ph.nv := by rw [hp.1]; omega
    rw [sweep_run τ _ (by simp) (by simp) 0 (by simp), List.foldlM_cons, step_loop τ _ _ vs l (by rfl) h, ok_bind88, List.foldlM_cons]
    rw [step_prism τ _ _ s (by simp) ⟨rfl, rfl⟩, sweep_run τ _ (by simp) (by simp) 0 (by simp), List.foldlM_cons,
      step_loop τ _ _ vs l (by rfl) h, ok_bind88, List.foldlM_cons, step_prism τ _ _ s (by simp) ⟨rfl, rfl⟩]
    simp only [e, made, ok_bind88, List.foldlM_cons]
    obtain ⟨c, ec⟩ := step_kept τ ⟨ph, []⟩ (Function.update (Function.update (fun _ => 0) "loop" 1) "prism" 1) "pyramid" (.inr rfl) ws hn
    rw [ec]
    simp
    rfl
  · obtain ⟨ph, e, hp⟩ := pyramid_on τ l s hl
    have hn : 0 < ph.nv := by rw [hp.1]; omega
    rw [sweep_run τ _ (by simp) (by simp) 0 (by simp), List.foldlM_cons, step_loop τ _ _ vs l (by rfl) h, ok_bind88, List.foldlM_cons]
    rw [step_pyramid τ _ _ s (by simp) ⟨rfl, rfl⟩, sweep_run τ _ (by simp) (by simp) 0 (by simp), List.foldlM_cons,
      step_loop τ _ _ vs l (by rfl) h, ok_bind88, List.foldlM_cons, step_pyramid τ _ _ s (by simp) ⟨rfl, rfl⟩]
    simp only [e, made, ok_bind88, List.foldlM_cons]
    obtain ⟨c, ec⟩ := step_kept τ ⟨ph, []⟩ (Function.update (Function.update (fun _ => 0) "loop" 1) "pyramid" 1) "prism" (.inl rfl) ws hn
    rw [ec]
    simp
    rfl

/-- **Refuted**: the order of the keys of a section does not matter.  With the prism before its loop the first face of no
triangles is read. -/
theorem C88_order_false (τ : ℝ) (vs : List (Tok ℝ)) (s : Vec3 ℝ) :
    sweepFromZTK τ [("prism", [.group s.x s.y s.z]), ("loop", vs)] = .error .undef := by
  have e := (C81_prism_total τ [] s).1 (by simp)
  rw [sweep_run τ _ (by simp) (by simp) 0 (by simp), List.foldlM_cons]
  rw [step_prism τ _ _ s rfl ⟨rfl, rfl⟩]
  simp [e, made, err_bind88]

/-- The result of the reader of faces and vertices, as a state of the whole reader. -/
private def lift88 : Except ZTK.Err (PH ℝ × (String → ℕ)) → Except ZTK.Err (SweepState × (String → ℕ))
  | .ok s => .ok (⟨s.1, []⟩, s.2)
  | .error e => .error e

private theorem phVert_nv {ph ph' : PH ℝ} {i : ℕ} {vs : List (Tok ℝ)} (h : phVert ph i vs = .ok ph') : ph'.nv = ph.nv := by
  unfold phVert at h
  split at h
  · exact absurd h (by simp)
  · split at h
    · exact absurd h (by simp)
    · simp only [Except.ok.injEq] at h; rw [← h]

private theorem phFace_nv {τ : ℝ} {ph ph' : PH ℝ} {vs : List (Tok ℝ)} (h : phFace τ ph vs = .ok ph') : ph'.nv = ph.nv := by
  unfold phFace at h
  split at h
  · exact absurd h (by simp)
  · split at h
    · exact absurd h (by simp)
    · split at h
      · exact absurd h (by simp)
      · split at h
        · exact absurd h (by simp)
        · simp only [Except.ok.injEq] at h; rw [← h]

private theorem step_agrees (τ : ℝ) (ph : PH ℝ) (cnt : String → ℕ) (f : KeyField ℝ)
    (h : f.1 ≠ "loop" ∧ f.1 ≠ "prism" ∧ f.1 ≠ "pyramid") (hv : f.1 = "vert" → cnt "vert" < ph.nv) :
    evalField (sweepPrp τ) (⟨ph, []⟩, cnt) f = lift88 (evalField (phPrp τ) (ph, cnt) f) ∧
    ∀ s, evalField (phPrp τ) (ph, cnt) f = .ok s → s.1.nv = ph.nv ∧ s.2 "vert" = cnt "vert" + if f.1 = "vert" then 1 else 0 := by
  obtain ⟨k, vs⟩ := f
  obtain ⟨h1, h2, h3⟩ := h
  simp only at h1 h2 h3 hv
  by_cases k1 : k = "vert"
  · subst k1
    unfold evalField
    have e : (phPrp τ).find? (fun p => p.key = "vert") = some ⟨"vert", -1, phVert, none⟩ := by simp [phPrp, List.find?]
    simp only [find_vert, e, sweepVert, if_true, hv rfl]
    rw [if_neg (by norm_num), if_neg (by norm_num)]
    cases e' : phVert ph (cnt "vert") vs with
    | error e => exact ⟨rfl, fun s h => absurd h (by simp)⟩
    | ok ph' =>
      refine ⟨rfl, fun s h => ?_⟩
      simp only [Except.ok.injEq] at h
      rw [← h]
      exact ⟨phVert_nv e', by simp⟩
  · by_cases k2 : k = "face"
    · subst k2
      unfold evalField
      have e : (phPrp τ).find? (fun p => p.key = "face") = some ⟨"face", -1, fun s _ => phFace τ s, none⟩ := by simp [phPrp, List.find?]
      have e1 : (sweepPrp τ).find? (fun p => p.key = "face") = some ⟨"face", -1, fun s _ => sweepFace τ s, none⟩ := by simp [sweepPrp, List.find?]
      simp only [e, e1, sweepFace]
      rw [if_neg (by norm_num), if_neg (by norm_num)]
      cases e' : phFace τ ph vs with
      | error e => exact ⟨rfl, fun s h => absurd h (by simp)⟩
      | ok ph' =>
        refine ⟨rfl, fun s h => ?_⟩
        simp only [Except.ok.injEq] at h
        rw [← h]
        exact ⟨phFace_nv e', by simp⟩
    · unfold evalField
      have e : (phPrp τ).find? (fun p => p.key = k) = none := by
        simp [phPrp, Ne.symm k1, Ne.symm k2, Ne.symm h1, Ne.symm h2, Ne.symm h3]
      have e1 : (sweepPrp τ).find? (fun p => p.key = k) = none := by
        simp [sweepPrp, Ne.symm k1, Ne.symm k2, Ne.symm h1, Ne.symm h2, Ne.symm h3]
      simp only [e, e1]
      refine ⟨rfl, fun s h => ?_⟩
      simp only [Except.ok.injEq] at h
      rw [← h]
      simp [k1]

private theorem fold_agrees (τ : ℝ) (fs : List (KeyField ℝ)) : ∀ (ph : PH ℝ) (cnt : String → ℕ),
    (∀ f ∈ fs, f.1 ≠ "loop" ∧ f.1 ≠ "prism" ∧ f.1 ≠ "pyramid") → cnt "vert" + fs.countP (fun f => f.1 = "vert") ≤ ph.nv →
    fs.foldlM (evalField (sweepPrp τ)) (⟨ph, []⟩, cnt) = lift88 (fs.foldlM (evalField (phPrp τ)) (ph, cnt)) := by
  induction fs with
  | nil => intro ph cnt _ _; rfl
  | cons f fs ih =>
    intro ph cnt h hn
    rw [List.countP_cons] at hn
    obtain ⟨h1, h2⟩ := step_agrees τ ph cnt f (h f List.mem_cons_self) (fun e => by simp only [e, decide_true, if_true] at hn; omega)
    rw [List.foldlM_cons, List.foldlM_cons, h1]
    cases e : evalField (phPrp τ) (ph, cnt) f with
    | error e => rfl
    | ok s =>
      obtain ⟨a, b⟩ := h2 s e
      have := ih s.1 s.2 (fun g hg => h g (List.mem_cons_of_mem _ hg)) (by
        rw [a, b]
        by_cases hk : f.1 = "vert"
        · simp only [hk, decide_true, if_true] at hn ⊢; omega
        · simp only [hk, decide_false, if_false, Bool.false_eq_true] at hn ⊢; omega)
      exact this

/-- Without loops, prisms and pyramids the whole reader is the one of vertices and faces (C53). -/
theorem C88_agrees (τ : ℝ) (fs : List (KeyField ℝ)) (h : ∀ f ∈ fs, f.1 ≠ "loop" ∧ f.1 ≠ "prism" ∧ f.1 ≠ "pyramid") :
    sweepFromZTK τ fs = phFromZTK τ fs := by
  unfold sweepFromZTK phFromZTK evalKeys
  have h0 : ¬ fs.any (fun f => f.1 = "prism" ∨ f.1 = "pyramid") = true := by
    simp only [List.any_eq_true, decide_eq_true_eq, not_exists, not_and]
    intro f hf hk
    rcases hk with hk | hk
    · exact (h f hf).2.1 hk
    · exact (h f hf).2.2 hk
  dsimp only
  rw [if_neg h0, if_neg h0, fold_agrees τ fs _ _ h (by simp)]
  split_ifs
  · rfl
  · cases fs.foldlM (evalField (phPrp τ)) (⟨fs.countP (fun f => f.1 = "vert"), fun _ => .zero, []⟩, fun _ => 0) <;> rfl

private theorem step_vert_ph (τ : ℝ) (ph : PH ℝ) (cnt : String → ℕ) (j : ℤ) (v : Vec3 ℝ) (h : cnt "vert" < ph.nv) :
    evalField (sweepPrp τ) (⟨ph, []⟩, cnt) ("vert", [.int j, .group v.x v.y v.z]) =
      .ok (⟨{ ph with vert := Function.update ph.vert (cnt "vert") v }, []⟩, Function.update cnt "vert" (cnt "vert" + 1)) := by
  unfold evalField
  simp only [find_vert, sweepVert, if_true, phVert, int, vec, h]
  simp

/-- **Refuted** (with vertices): the prism is then made of as many zero vectors, and the vertices are written into its
bottom afterwards; its top stays a single point. -/
theorem C88_order_vert (τ : ℝ) (s a b c : Vec3 ℝ) :
    ∃ ph, sweepFromZTK τ (("prism", [.group s.x s.y s.z]) :: vertFields [a, b, c]) = .ok ph ∧ ph.nv = 6 ∧
      ph.vert 0 = a ∧ ph.vert 1 = b ∧ ph.vert 2 = c ∧ ph.vert 3 = s ∧ ph.vert 4 = s ∧ ph.vert 5 = s := by
  obtain ⟨ph, e, hp⟩ := prism_on τ (List.replicate 3 .zero) s (by simp)
  have hn : ph.nv = 6 := hp.1
  have ev := prism_vert e
  rw [sweep_run τ _ (by simp) (by simp [vertFields]) 3 (by simp [vertFields])]
  unfold vertFields
  simp only [List.zipIdx_cons, List.zipIdx_nil, List.map_cons, List.map_nil]
  rw [List.foldlM_cons, step_prism τ _ _ s (by rfl) ⟨rfl, rfl⟩]
  simp only [e, made, ok_bind88]
  rw [List.foldlM_cons, step_vert_ph τ _ _ _ _ (by simp [hn]), ok_bind88,
    List.foldlM_cons, step_vert_ph τ _ _ _ _ (by simp [hn]), ok_bind88,
    List.foldlM_cons, step_vert_ph τ _ _ _ _ (by simp [hn]), ok_bind88]
  have hz : ∀ v : Vec3 ℝ, Vec3.zero.add v = v := by intro v; simp [Vec3.add, Vec3.zero]
  refine ⟨_, rfl, hn, ?_, ?_, ?_, ?_, ?_, ?_⟩ <;> simp [Function.update, ev, Sweep.prismVert, hz]

end Zeo
