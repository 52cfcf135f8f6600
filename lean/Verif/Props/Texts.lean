import Verif.Model.Texts

/-! # C104: texts determine what they show -/

namespace Verif.Props

variable {α : Type}

/-- What is assumed of the texts of numbers: different numbers have different texts, made of digits, points, signs and letters. -/
structure GoodNum (num : α → List Char) : Prop where
  inj : ∀ a b, num a = num b → a = b
  chars : ∀ a, ∀ c ∈ num a, c.isAlphanum = true ∨ c = '.' ∨ c = '-' ∨ c = '+'

theorem split_at {c : Char} : ∀ {a b r s : List Char}, a ++ c :: r = b ++ c :: s → c ∉ a → c ∉ b → a = b ∧ r = s
  | [], [], r, s, h, _, _ => by simpa using h
  | [], y :: b, r, s, h, _, hb => by
    simp only [List.nil_append, List.cons_append, List.cons.injEq] at h
    exact absurd (h.1 ▸ List.mem_cons_self) hb
  | x :: a, [], r, s, h, ha, _ => by
    simp only [List.nil_append, List.cons_append, List.cons.injEq] at h
    exact absurd (h.1 ▸ List.mem_cons_self) ha
  | x :: a, y :: b, r, s, h, ha, hb => by
    simp only [List.cons_append, List.cons.injEq] at h
    obtain ⟨h1, h2⟩ := split_at h.2 (fun m => ha (List.mem_cons_of_mem _ m)) (fun m => hb (List.mem_cons_of_mem _ m))
    exact ⟨by rw [h.1, h1], h2⟩

/-- Numbers followed by a separator can be read back. -/
theorem GoodNum.read {num : α → List Char} (h : GoodNum num) {c : Char}
    (hc : ¬ (c.isAlphanum = true ∨ c = '.' ∨ c = '-' ∨ c = '+')) {a b : α} {r s : List Char}
    (e : num a ++ c :: r = num b ++ c :: s) : a = b ∧ r = s := by
  obtain ⟨e1, e2⟩ := split_at e (fun m => hc (h.chars a c m)) (fun m => hc (h.chars b c m))
  exact ⟨h.inj _ _ e1, e2⟩

theorem coord_read {num : α → List Char} (h : GoodNum num) {a b : Coord α} {r s : List Char}
    (e : a.text num ++ r = b.text num ++ s) : (a.x = b.x ∧ a.y = b.y ∧ a.z = b.z) ∧ r = s := by
  simp only [Coord.text, String.reduceToList, List.append_assoc, List.cons_append, List.nil_append, List.cons.injEq, true_and] at e
  obtain ⟨hx, e⟩ := h.read (by decide) e
  simp only [List.cons.injEq, true_and] at e
  obtain ⟨hy, e⟩ := h.read (by decide) e
  simp only [List.cons.injEq, true_and] at e
  obtain ⟨hz, e⟩ := h.read (by decide) e
  exact ⟨⟨hx, hy, hz⟩, e⟩

/-- Two coordinates have the same text exactly if they have the same x, y and height: the measure is not shown. -/
theorem C104_coordinates {num : α → List Char} (h : GoodNum num) (a b : Coord α) :
    a.text num = b.text num ↔ a.x = b.x ∧ a.y = b.y ∧ a.z = b.z := by
  constructor
  · intro e
    exact (coord_read h (r := []) (s := []) (by simpa using e)).1
  · rintro ⟨h1, h2, h3⟩
    simp only [Coord.text, h1, h2, h3]

/-- The coordinates after the first one in the text of a sequence. -/
def tailText (num : α → List Char) : List (Coord α) → List Char
  | [] => ")".toList
  | c :: l => ", ".toList ++ c.text num ++ tailText num l

theorem foldl_text (num : α → List Char) (l : List (Coord α)) (s : List Char) :
    l.foldl (fun str d => str ++ ", ".toList ++ d.text num) s ++ ")".toList = s ++ tailText num l := by
  induction l generalizing s with
  | nil => rfl
  | cons c l ih => rw [List.foldl_cons, ih, tailText]; simp only [List.append_assoc]

theorem tail_read {num : α → List Char} (h : GoodNum num) : ∀ {l m : List (Coord α)}, tailText num l = tailText num m →
    l.map (fun c => (c.x, c.y, c.z)) = m.map (fun c => (c.x, c.y, c.z))
  | [], [], _ => rfl
  | [], c :: m, e => by simp [tailText, Coord.text] at e
  | c :: l, [], e => by simp [tailText, Coord.text] at e
  | c :: l, d :: m, e => by
    simp only [tailText, List.append_assoc] at e
    obtain ⟨⟨h1, h2, h3⟩, e⟩ := coord_read h (List.append_cancel_left e)
    rw [List.map_cons, List.map_cons, tail_read h e, h1, h2, h3]

theorem tail_text_congr {num : α → List Char} : ∀ {l m : List (Coord α)},
    l.map (fun c => (c.x, c.y, c.z)) = m.map (fun c => (c.x, c.y, c.z)) → tailText num l = tailText num m
  | [], [], _ => rfl
  | [], _ :: _, e => by simp at e
  | _ :: _, [], e => by simp at e
  | c :: l, d :: m, e => by
    simp only [List.map_cons, List.cons.injEq, Prod.mk.injEq] at e
    simp only [tailText, tail_text_congr e.2, Coord.text, e.1.1, e.1.2.1, e.1.2.2]

/-- Two sequences have the same text exactly if they have the same number of coordinates and these have the same x, y and heights, in
the same order. -/
theorem C104_sequences {num : α → List Char} (h : GoodNum num) (a b : CASeq α) :
    a.text num = b.text num ↔ a.coordinates.map (fun c => (c.x, c.y, c.z)) = b.coordinates.map (fun c => (c.x, c.y, c.z)) := by
  unfold CASeq.text
  rcases ha : a.coordinates with _ | ⟨c, l⟩ <;> rcases hb : b.coordinates with _ | ⟨d, m⟩
  · simp
  · simp only [foldl_text, List.map_nil, List.map_cons]
    simp [Coord.text]
  · simp only [foldl_text, List.map_nil, List.map_cons]
    simp [Coord.text]
  · simp only [foldl_text]
    constructor
    · intro e
      rw [List.append_assoc, List.append_assoc] at e
      obtain ⟨⟨h1, h2, h3⟩, e⟩ := coord_read h (List.append_cancel_left e)
      rw [List.map_cons, List.map_cons, tail_read h e, h1, h2, h3]
    · intro e
      simp only [List.map_cons, List.cons.injEq, Prod.mk.injEq] at e
      simp only [tail_text_congr (num := num) e.2, Coord.text, e.1.1, e.1.2.1, e.1.2.2]

/-- Two envelopes have the same text exactly if they have the same bounds. -/
theorem C104_envelopes {num : α → List Char} (h : GoodNum num) (a b : Env α) : a.text num = b.text num ↔ a = b := by
  refine ⟨fun e => ?_, fun e => congrArg _ e⟩
  obtain ⟨a1, a2, a3, a4⟩ := a
  obtain ⟨b1, b2, b3, b4⟩ := b
  unfold Env.text at e
  rw [show "Env[".toList = ['E', 'n', 'v', '['] from rfl, show " : ".toList = [' ', ':', ' '] from rfl,
    show ", ".toList = [',', ' '] from rfl, show "]".toList = [']'] from rfl] at e
  simp only [List.append_assoc, List.cons_append, List.nil_append] at e
  injection e with _ e
  injection e with _ e
  injection e with _ e
  injection e with _ e
  obtain ⟨h1, e⟩ := h.read (c := ' ') (by decide) e
  injection e with _ e
  injection e with _ e
  obtain ⟨h2, e⟩ := h.read (c := ',') (by decide) e
  injection e with _ e
  obtain ⟨h3, e⟩ := h.read (c := ' ') (by decide) e
  injection e with _ e
  injection e with _ e
  obtain ⟨h4, -⟩ := h.read (c := ']') (by decide) e
  rw [h1, h2, h3, h4]

/-- Two precision models have the same text exactly if they have the same type and, if that is fixed, the same scale. -/
theorem C104_precision_models {num : α → List Char} (h : GoodNum num) (a b : PM α) :
    a.text num = b.text num ↔ a.modelType = b.modelType ∧ (a.modelType = .fixed → a.scale = b.scale) := by
  unfold PM.text
  rcases ha : a.modelType <;> rcases hb : b.modelType <;> simp
  exact ⟨h.inj _ _, fun e => by rw [e]⟩

/-- Two vectors in the plane have the same text exactly if they are equal. -/
theorem C104_vectors_2d {num : α → List Char} (h : GoodNum num) (a b : Vec2 α) : a.text num = b.text num ↔ a = b := by
  refine ⟨fun e => ?_, fun e => by rw [e]⟩
  simp only [Vec2.text, String.reduceToList, List.append_assoc, List.cons_append, List.nil_append, List.cons.injEq, true_and] at e
  obtain ⟨h1, e⟩ := h.read (by decide) e
  simp only [List.cons.injEq, true_and] at e
  obtain ⟨h2, e⟩ := h.read (by decide) e
  exact Vec2.ext h1 h2

/-- Two vectors in space have the same text exactly if they are equal. -/
theorem C104_vectors_3d {num : α → List Char} (h : GoodNum num) (a b : Vec3 α) : a.text num = b.text num ↔ a = b := by
  refine ⟨fun e => ?_, fun e => by rw [e]⟩
  simp only [Vec3.text, String.reduceToList, List.append_assoc, List.cons_append, List.nil_append, List.cons.injEq, true_and] at e
  obtain ⟨h1, e⟩ := h.read (by decide) e
  simp only [List.cons.injEq, true_and] at e
  obtain ⟨h2, e⟩ := h.read (by decide) e
  simp only [List.cons.injEq, true_and] at e
  obtain ⟨h3, e⟩ := h.read (by decide) e
  exact Vec3.ext h1 h2 h3

/-- Two double-doubles have the same dump exactly if they have the same parts. -/
theorem C104_double_doubles {num : α → List Char} (h : GoodNum num) (a b : DD α) : a.dump num = b.dump num ↔ a = b := by
  refine ⟨fun e => ?_, fun e => by rw [e]⟩
  simp only [DD.dump, String.reduceToList, List.append_assoc, List.cons_append, List.nil_append, List.cons.injEq, true_and] at e
  obtain ⟨h1, e⟩ := h.read (by decide) e
  simp only [List.cons.injEq, true_and] at e
  obtain ⟨h2, e⟩ := h.read (by decide) e
  cases a; cases b
  simp_all

/-! ## Cases -/

/-- Numbers in unary. -/
def unary (n : ℕ) : List Char := List.replicate n '1'

theorem good_unary : GoodNum unary where
  inj a b h := by simpa [unary] using congrArg List.length h
  chars a c h := by
    rw [unary, List.mem_replicate] at h
    rw [h.2]; decide

example : CASeq.text unary ⟨3, 0, [⟨1, 2, 3, 4⟩, ⟨0, 1, 1, 7⟩]⟩ = "((1, 11, 111), (, 1, 1))".toList ∧
    CASeq.text unary ⟨3, 0, []⟩ = "()".toList ∧ Env.text unary ⟨1, 2, 3, 4⟩ = "Env[1 : 11, 111 : 1111]".toList ∧
    PM.text unary ⟨.fixed, 2, 0⟩ = "Fixed (Scale=11)".toList := by
  decide

example : Coord.text unary ⟨1, 2, 3, 4⟩ = Coord.text unary ⟨1, 2, 3, 5⟩ ∧ Coord.text unary ⟨1, 2, 3, 4⟩ ≠ Coord.text unary ⟨1, 2, 4, 4⟩ :=
  ⟨(C104_coordinates good_unary _ _).mpr ⟨rfl, rfl, rfl⟩, fun h => by simpa using ((C104_coordinates good_unary _ _).mp h).2.2⟩

end Verif.Props
