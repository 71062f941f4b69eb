import Verif.Lemmas.ClassFilesBoot
import Verif.Model.ClassFiles
/-!
# Chains of superclasses
-/
set_option autoImplicit false
namespace PySOM.Boot

/-! ## The system goes on -/

section
variable {env : Env} {P : Name → Prop}

theorem Files.allow {T B : Name → Prop} {u : U} (h : Files env (fun _ => False) T B u) : Files env P T B u :=
  ⟨h.sys, fun x hx _ => h.bound x hx fun h => h, fun n c hn _ => h.glob n c hn fun _ _ h => h, fun n hn hB _ => h.spec n hn hB fun h => h, h.free⟩

theorem Files.goes (hx : env.avoidExit = false) (hB : NoSpecial env) {u u' : U} (h : Files env P (fun _ => False) (fun _ => False) u) (hg : Goes 1 env P u u') :
    Files env P (fun _ => False) (fun _ => False) u' := by
  induction hg with
  | stay => exact h
  | load u' k n _ ih => exact (keeps_loadClass hx hB k n u' (fun _ h => h) ih).1
  | shell u' k t _ ih => exact Keep.compile (keeps_loadClass hx hB k) (fun _ _ _ h => h) 1 u' ih
  | put u' n v _ hn ih => exact ih.set n v (fun c _ hc => absurd hn hc.self) (.inr (.inl hn)) fun _ h => h

theorem Later.compile' {load : Name → M Glob} (hl : ∀ n u, Later u (load n u).2) («meta» : Cid) (t : Text) (u : U) : Later u (Boot.compile «meta» load t none u).2 := Later.compile hl «meta» t u

/-- Classes stay as they are. -/
theorem goes_at {«meta» : Cid} {u u' : U} (hg : Goes «meta» env P u u') : (∀ c, c < u.classes.length → u'.at c = u.at c) ∧ u.classes.length ≤ u'.classes.length := by
  induction hg with
  | stay => exact ⟨fun _ _ => rfl, Nat.le_refl _⟩
  | load u' k n _ ih =>
    have := Later.loadClass «meta» env k n u'
    exact ⟨fun c hc => (this.at (Nat.lt_of_lt_of_le hc ih.2)).trans (ih.1 c hc), Nat.le_trans ih.2 this.classes.length_le⟩
  | shell u' k t _ ih =>
    have := Later.compile (Later.loadClass «meta» env k) «meta» t u'
    exact ⟨fun c hc => (this.at (Nat.lt_of_lt_of_le hc ih.2)).trans (ih.1 c hc), Nat.le_trans ih.2 this.classes.length_le⟩
  | put u' n v _ hn ih => exact ⟨fun c hc => ih.1 c hc, ih.2⟩
end

/-! ## Chains -/

/-- The class and its superclasses. -/
inductive Path (u : U) : Cid → List Cid → Prop where
  | top (c : Cid) (h : (u.at c).sup = none) : Path u c [c]
  | up (c s : Cid) (cs : List Cid) (h : (u.at c).sup = some s) (h' : Path u s cs) : Path u c (c :: cs)

theorem Path.unique {u : U} {c : Cid} {cs cs' : List Cid} (h : Path u c cs) (h' : Path u c cs') : cs = cs' := by
  induction h generalizing cs' with
  | top c h =>
    cases h' with
    | top _ _ => rfl
    | up _ s _ hs _ => rw [h] at hs; cases hs
  | up c s cs hs _ ih =>
    cases h' with
    | top _ h => rw [h] at hs; cases hs
    | up _ s' _ hs' h' =>
      cases Option.some.inj (hs.symm.trans hs')
      rw [ih h']

theorem Path.inner {u : U} {c x : Cid} {cs : List Cid} (h : Path u c cs) (hx : x ∈ cs) : ∃ xs, Path u x xs ∧ xs.length ≤ cs.length := by
  induction h with
  | top c h =>
    rcases List.mem_cons.1 hx with rfl | hx
    · exact ⟨_, .top _ h, Nat.le_refl _⟩
    · cases hx
  | up c s cs hs h ih =>
    rcases List.mem_cons.1 hx with rfl | hx
    · exact ⟨_, .up _ _ _ hs h, Nat.le_refl _⟩
    · obtain ⟨xs, h1, h2⟩ := ih hx
      exact ⟨xs, h1, Nat.le_succ_of_le h2⟩

theorem Path.nodup {u : U} {c : Cid} {cs : List Cid} (h : Path u c cs) : cs.Nodup := by
  induction h with
  | top c h => simp
  | up c s cs hs h ih =>
    refine List.nodup_cons.2 ⟨fun hc => ?_, ih⟩
    obtain ⟨xs, h1, h2⟩ := h.inner hc
    have := h1.unique (.up _ _ _ hs h)
    rw [this] at h2
    exact absurd h2 (Nat.not_succ_le_self _)

theorem Path.chainTo {u : U} {c : Cid} {cs : List Cid} (h : Path u c cs) (k : Nat) (hk : cs.length ≤ k) : u.chainTo k c = cs := by
  induction h generalizing k with
  | top c h =>
    cases k with
    | zero => cases hk
    | succ k => unfold U.chainTo; rw [h]
  | up c s cs hs _ ih =>
    cases k with
    | zero => cases hk
    | succ k =>
      unfold U.chainTo
      rw [hs]
      dsimp only
      rw [ih k (Nat.le_of_succ_le_succ hk)]

theorem U.lt_of_name {u : U} {c : Cid} {n : Name} (h : (u.at c).name = some n) : c < u.classes.length := by
  rcases Nat.lt_or_ge c u.classes.length with h1 | h1
  · exact h1
  · rw [U.at_out u c h1] at h; cases h

theorem Described.name {env : Env} {u : U} {d : Desc} {c : Cid} (h : Described env u d c) : (u.at c).name = some (if d.onClass then className d.name else d.name) := by
  cases h <;> assumption

theorem Path.chain {u : U} {c : Cid} {cs : List Cid} (h : Path u c cs) (hl : ∀ x ∈ cs, x < u.classes.length) : u.chain c = cs := by
  refine h.chainTo _ ?_
  have := List.Nodup.length_le_of_subset (l₂ := List.range u.classes.length) h.nodup fun x hx => List.mem_range.2 (hl x hx)
  rwa [List.length_range] at this

theorem Described.path {env : Env} {u : U} {d : Desc} {c : Cid} (h : Described env u d c) : ∃ cs, Path u c cs ∧ ∀ x ∈ cs, x < u.classes.length := by
  induction h with
  | top d c hn _ _ _ hs _ =>
    refine ⟨[c], .top c hs, fun x hx => ?_⟩
    rcases List.mem_cons.1 hx with rfl | hx
    · exact U.lt_of_name hn
    · cases hx
  | sub d d' c s hn _ _ _ hs _ _ ih =>
    obtain ⟨cs, h1, h2⟩ := ih
    refine ⟨c :: cs, .up c s cs hs h1, fun x hx => ?_⟩
    rcases List.mem_cons.1 hx with rfl | hx
    · exact U.lt_of_name hn
    · exact h2 x hx

/-- The chain of a class starts with it, and goes on with that of its superclass. -/
theorem Described.chain {env : Env} {u : U} {d : Desc} {c : Cid} (h : Described env u d c) :
    u.chain c = c :: (match (u.at c).sup with | some s => u.chain s | none => []) := by
  obtain ⟨cs, hp, hl⟩ := h.path
  rw [hp.chain hl]
  cases hp with
  | top _ h => rw [h]
  | up _ s cs hs hp' =>
    rw [hs]
    dsimp only
    rw [hp'.chain fun x hx => hl x (.tail _ hx)]

theorem Says.unique {env : Env} {sel : Name} {d : Desc} {r r' : Option (Desc × Kind)} (h : Says env sel d r) (h' : Says env sel d r') : r = r' := by
  induction h with
  | own d k h =>
    cases h' with
    | own _ k' h2 => cases Option.some.inj (h.symm.trans h2); rfl
    | up _ _ _ h2 _ _ => rw [h] at h2; cases h2
    | none _ h2 _ => rw [h] at h2; cases h2
  | up d d' r h ha _ ih =>
    cases h' with
    | own _ k' h2 => rw [h] at h2; cases h2
    | up _ _ _ h2 ha' h3 =>
      cases Option.some.inj (ha.symm.trans ha')
      exact ih h3
    | none _ _ ha' => rw [ha] at ha'; cases ha'
  | none d h ha =>
    cases h' with
    | own _ k' h2 => rw [h] at h2; cases h2
    | up _ _ _ h2 ha' _ => rw [ha] at ha'; cases ha'
    | none _ _ _ => rfl

/-- What lookup finds is what the texts say. -/
theorem Described.says {env : Env} {u : U} {d : Desc} {c : Cid} (h : Described env u d c) (sel : Name) :
    (∃ dh k h before after, Says env sel d (some (dh, k)) ∧ Described env u dh h ∧ u.chain c = before ++ h :: after ∧ (∀ x ∈ before, (u.at x).method sel = none) ∧
      (u.at h).method sel = some ⟨sel, k, h⟩) ∨
    Says env sel d none ∧ ∀ x ∈ u.chain c, (u.at x).method sel = none := by
  induction h with
  | top d c hn hf ht hl hs ha =>
    have hd : Described env u d c := .top d c hn hf ht hl hs ha
    have hc := hd.chain
    rw [hs] at hc
    cases hk : declares env d sel with
    | some k => exact .inl ⟨d, k, c, [], [], .own d k hk, hd, hc, (fun x hx => nomatch hx), by rw [ht, hk]; rfl⟩
    | none =>
      refine .inr ⟨.none d hk ha, fun x hx => ?_⟩
      rw [hc] at hx
      rcases List.mem_cons.1 hx with rfl | hx
      · rw [ht, hk]; rfl
      · cases hx
  | sub d d' c s hn hf ht hl hs ha h ih =>
    have hd : Described env u d c := .sub d d' c s hn hf ht hl hs ha h
    have hc := hd.chain
    rw [hs] at hc
    dsimp only at hc
    cases hk : declares env d sel with
    | some k => exact .inl ⟨d, k, c, [], u.chain s, .own d k hk, hd, hc, (fun x hx => nomatch hx), by rw [ht, hk]; rfl⟩
    | none =>
      have h0 : (u.at c).method sel = none := by rw [ht, hk]; rfl
      rcases ih with ⟨dh, k, x, before, after, h1, h2, h3, h4, h5⟩ | ⟨h1, h2⟩
      · refine .inl ⟨dh, k, x, c :: before, after, .up d d' _ hk ha h1, h2, by rw [hc, h3]; rfl, fun y hy => ?_, h5⟩
        rcases List.mem_cons.1 hy with rfl | hy
        · exact h0
        · exact h4 y hy
      · refine .inr ⟨.up d d' _ hk ha h1, fun x hx => ?_⟩
        rw [hc] at hx
        rcases List.mem_cons.1 hx with rfl | hx
        · exact h0
        · exact h2 x hx

end PySOM.Boot
