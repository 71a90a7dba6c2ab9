import Verif.Spec.SqlConvert
import Mathlib.Data.List.Infix
/-!
# C115: the statement that creates a table
-/
namespace Verif.SqlConvert
open Verif.SqlConvert.Spec

/-! ### Texts -/

theorem strip_some {p s r : List Char} (h : strip p s = some r) : s = p ++ r := by
  induction p generalizing s with
  | nil => exact Option.some.inj h
  | cons a p ih =>
    cases s with
    | nil => cases h
    | cons c s =>
      unfold strip at h
      split at h
      · rename_i hc
        rw [ih h, hc]
        rfl
      · cases h

theorem strip_append (p r : List Char) : strip p (p ++ r) = some r := by
  induction p with
  | nil => rfl
  | cons a p ih =>
    show strip (a :: p) (a :: (p ++ r)) = _
    unfold strip
    rw [if_pos rfl]
    exact ih

theorem strip_none {p s : List Char} (h : ¬ p <+: s) : strip p s = none := by
  cases hs : strip p s with
  | none => rfl
  | some r => exact absurd ⟨r, (strip_some hs).symm⟩ h

/-- A fixed text that starts in `u`, and does not have the first character after `u` but maybe at its start, is in `u`. -/
theorem prefix_left {p u v : List Char} {c : Char} (hu : u ≠ []) (hc : c ∉ p.tail) (h : p <+: u ++ c :: v) : p <+: u := by
  rcases Nat.lt_or_ge u.length p.length with hl | hl
  · exfalso
    apply hc
    obtain ⟨r, hr⟩ := h
    have h1 : p[u.length]? = some c := by
      have h2 : (p ++ r)[u.length]? = some c := by rw [hr, List.getElem?_append_right (Nat.le_refl _), Nat.sub_self]; rfl
      rwa [List.getElem?_append_left hl] at h2
    have hul : 0 < u.length := List.length_pos_iff.2 hu
    cases p with
    | nil => simp at hl
    | cons a p =>
      rw [List.tail_cons]
      obtain ⟨n, hn⟩ : ∃ n, u.length = n + 1 := ⟨u.length - 1, by omega⟩
      rw [hn, List.getElem?_cons_succ] at h1
      exact List.mem_of_getElem? h1
  · exact List.prefix_of_prefix_length_le h (List.prefix_append ..) hl

theorem afterLast_length {c : Char} {s r : List Char} (h : afterLast c s = some r) : r <:+ s ∧ r.length < s.length := by
  induction s with
  | nil => cases h
  | cons x xs ih =>
    unfold afterLast at h
    cases ha : afterLast c xs with
    | some r' =>
      rw [ha] at h
      obtain rfl := Option.some.inj h
      obtain ⟨h1, h2⟩ := ih ha
      exact ⟨h1.trans (List.suffix_cons ..), by simp; omega⟩
    | none =>
      rw [ha] at h
      dsimp only at h
      split at h
      · obtain rfl := Option.some.inj h
        exact ⟨List.suffix_cons .., by simp⟩
      · cases h

theorem afterLast_last {c : Char} {a b : List Char} (h : c ∉ b) : afterLast c (a ++ c :: b) = some b := by
  have hn : afterLast c b = none := by
    induction b with
    | nil => rfl
    | cons x b ih =>
      unfold afterLast
      rw [ih fun hm => h (List.mem_cons_of_mem _ hm)]
      dsimp only
      rw [if_neg]
      rintro rfl
      exact h (List.mem_cons_self ..)
  induction a with
  | nil =>
    show afterLast c (c :: b) = _
    unfold afterLast
    rw [hn]
    exact if_pos rfl
  | cons x a ih =>
    show afterLast c (x :: (a ++ c :: b)) = _
    unfold afterLast
    rw [ih]

theorem takeLine {u v : List Char} (h : '\n' ∉ u) : (u ++ '\n' :: v).takeWhile notNl = u ∧ (u ++ '\n' :: v).dropWhile notNl = '\n' :: v := by
  induction u with
  | nil => exact ⟨rfl, rfl⟩
  | cons x u ih =>
    obtain ⟨h1, h2⟩ := ih fun hm => h (List.mem_cons_of_mem _ hm)
    have hx : notNl x = true := by
      unfold notNl
      rw [bne_iff_ne]
      rintro rfl
      exact h (List.mem_cons_self ..)
    rw [List.cons_append, List.takeWhile_cons_of_pos hx, List.dropWhile_cons_of_pos hx, h1]
    exact ⟨rfl, h2⟩

theorem dropLine {u : List Char} (h : '\n' ∉ u) : u.dropWhile notNl = [] := by
  induction u with
  | nil => rfl
  | cons x u ih =>
    have hx : notNl x = true := by
      unfold notNl
      rw [bne_iff_ne]
      rintro rfl
      exact h (List.mem_cons_self ..)
    rw [List.dropWhile_cons_of_pos hx]
    exact ih fun hm => h (List.mem_cons_of_mem _ hm)

/-! ### Substitution -/

/-- The matches are not empty, and what follows them is the end of the text. -/
def Matcher (m : List Char → Option (List Char)) : Prop := ∀ s r, m s = some r → r <:+ s ∧ r.length < s.length

theorem comment_matcher : Matcher matchComment := by
  intro s r h
  unfold matchComment at h
  split at h
  · cases h
  · rename_i r' hs
    have := strip_some hs
    split at h
    · cases h
    · split at h
      · cases h
      · rename_i c q hd
        split at h
        · unfold greedyQuote at h
          split at h
          · cases h
          · rename_i x hx
            obtain rfl := Option.some.inj h
            obtain ⟨⟨y, hy⟩, h2⟩ := afterLast_length hx
            have hq : y ++ (x ++ q.dropWhile notNl) = q := by rw [← List.append_assoc, hy, List.takeWhile_append_dropWhile]
            have hsuf : q <:+ s := ((List.suffix_cons c q).trans (hd ▸ List.dropWhile_suffix isSpace)).trans ⟨_, this.symm⟩
            have hyl : y ≠ [] := by
              rintro rfl
              rw [← hy] at h2
              simp at h2
            have hxs : x ++ q.dropWhile notNl <:+ q := ⟨y, hq⟩
            refine ⟨hxs.trans hsuf, ?_⟩
            have h3 := congrArg List.length hq
            rw [List.length_append] at h3
            have h4 := List.length_pos_iff.2 hyl
            have h5 := hsuf.length_le
            omega
        · cases h

theorem engine_matcher : Matcher matchEngine := by
  intro s r h
  unfold matchEngine at h
  split at h
  · cases h
  · rename_i q hs
    obtain rfl := Option.some.inj h
    have hq : q <:+ s := List.IsSuffix.trans ⟨_, (strip_some hs).symm⟩ (List.dropWhile_suffix isSpace)
    refine ⟨(List.dropWhile_suffix _).trans hq, ?_⟩
    have h1 := congrArg List.length (strip_some hs)
    rw [List.length_append] at h1
    have h2 := (List.dropWhile_suffix (p := isSpace) (l := s)).length_le
    have h3 := (List.dropWhile_suffix (p := notNl) (l := q)).length_le
    simp only [List.length_cons, List.length_nil] at h1
    omega

theorem key_matcher : Matcher matchKey := by
  intro s r h
  unfold matchKey at h
  split at h
  · cases h
  · rename_i c t
    split at h
    · split at h
      · split at h
        · cases h
        · rename_i q hs
          have hq : q <:+ t := List.IsSuffix.trans ⟨_, (strip_some hs).symm⟩ (List.dropWhile_suffix isSpace)
          have hr : r <:+ q := by
            unfold keyEnd at h
            split at h
            · rename_i x rest hd
              obtain rfl := Option.some.inj h
              exact (List.suffix_cons x rest).trans (hd ▸ List.dropWhile_suffix notNl)
            · exact (afterLast_length h).1
          refine ⟨(hr.trans hq).trans (List.suffix_cons ..), ?_⟩
          have := (hr.trans hq).length_le
          simp only [List.length_cons]
          omega
      · cases h
    · cases h

theorem subFuel_enough {m : List Char → Option (List Char)} (hm : Matcher m) : ∀ (n k : Nat) (s : List Char), s.length ≤ n → s.length ≤ k → subFuel m n s = subFuel m k s := by
  intro n
  induction n with
  | zero =>
    intro k s hn hk
    have : s = [] := List.length_eq_zero_iff.1 (by omega)
    subst this
    cases k <;> rfl
  | succ n ih =>
    intro k s hn hk
    cases s with
    | nil => cases k <;> rfl
    | cons c s =>
      obtain ⟨k, rfl⟩ : ∃ k', k = k' + 1 := ⟨k - 1, by simp at hk; omega⟩
      unfold subFuel
      simp only [List.length_cons] at hn hk
      cases hc : m (c :: s) with
      | some r =>
        dsimp only
        have := (hm _ _ hc).2
        simp only [List.length_cons] at this
        exact ih k r (by omega) (by omega)
      | none =>
        dsimp only
        rw [ih k s (by omega) (by omega)]

theorem sub_hit {m : List Char → Option (List Char)} (hm : Matcher m) {s r : List Char} (h : m s = some r) : sub m s = sub m r := by
  have hl := (hm _ _ h).2
  unfold sub
  cases s with
  | nil => simp at hl
  | cons c s =>
    simp only [List.length_cons] at hl ⊢
    rw [subFuel, h]
    exact subFuel_enough hm _ _ _ (by omega) (Nat.le_refl _)

theorem sub_cons {m : List Char → Option (List Char)} (c : Char) (s : List Char) (h : m (c :: s) = none) : sub m (c :: s) = c :: sub m s := by
  unfold sub
  rw [List.length_cons, subFuel, h]

theorem sub_skip {m : List Char → Option (List Char)} {u v : List Char} (h : ∀ u', u' ≠ [] → u' <:+ u → m (u' ++ v) = none) : sub m (u ++ v) = u ++ sub m v := by
  induction u with
  | nil => rfl
  | cons c u ih =>
    rw [List.cons_append, sub_cons c (u ++ v) (h (c :: u) (by simp) (List.suffix_refl _)), ih fun u' h1 h2 => h u' h1 (h2.trans (List.suffix_cons ..)), List.cons_append]

theorem sub_nil (m : List Char → Option (List Char)) : sub m [] = [] := rfl

theorem sub_mem {m : List Char → Option (List Char)} (hm : Matcher m) {c : Char} : ∀ (n : Nat) (s : List Char), s.length ≤ n → c ∈ sub m s → c ∈ s := by
  intro n
  induction n with
  | zero =>
    intro s hs h
    have : s = [] := List.length_eq_zero_iff.1 (by omega)
    subst this
    exact h
  | succ n ih =>
    intro s hs h
    cases s with
    | nil => exact h
    | cons x s =>
      cases hx : m (x :: s) with
      | some r =>
        rw [sub_hit hm hx] at h
        obtain ⟨h1, h2⟩ := hm _ _ hx
        exact h1.subset (ih r (by simp at hs h2; omega) h)
      | none =>
        rw [sub_cons _ _ hx] at h
        rcases List.mem_cons.1 h with rfl | h
        · exact List.mem_cons_self ..
        · exact List.mem_cons_of_mem _ (ih s (by simp at hs; omega) h)

/-! ### Comments -/

def COMMENT : List Char := [' ', 'C', 'O', 'M', 'M', 'E', 'N', 'T']

theorem comment_none {u v : List Char} {c : Char} (hu : u ≠ []) (hc : c = ' ' ∨ c = ',' ∨ c = '\n') (hn : ¬ COMMENT <:+: u) : matchComment (u ++ c :: v) = none := by
  unfold matchComment
  have hc' : c ∉ COMMENT.tail := by rcases hc with rfl | rfl | rfl <;> decide
  rw [show [' ', 'C', 'O', 'M', 'M', 'E', 'N', 'T'] = COMMENT from rfl, strip_none]
  intro h
  exact hn (prefix_left hu hc' h).isInfix

theorem comment_skip {u v : List Char} {c : Char} (hc : c = ' ' ∨ c = ',' ∨ c = '\n') (hn : ¬ COMMENT <:+: u) : sub matchComment (u ++ c :: v) = u ++ sub matchComment (c :: v) :=
  sub_skip fun _ h1 h2 => comment_none h1 hc fun h => hn (h.trans h2.isInfix)

theorem comment_char {c : Char} (s : List Char) (hc : c ≠ ' ') : sub matchComment (c :: s) = c :: sub matchComment s := by
  apply sub_cons
  unfold matchComment strip
  rw [if_neg fun h => hc h.symm]

/-- A comment is removed up to the end of the line. -/
theorem comment_hit {t x y : List Char} (ht : '\n' ∉ t) (hx : x = [] ∨ x = [',']) :
    matchComment ([' ', 'C', 'O', 'M', 'M', 'E', 'N', 'T', ' ', '\''] ++ t ++ ['\''] ++ x ++ '\n' :: y) = some (x ++ '\n' :: y) := by
  have e : [' ', 'C', 'O', 'M', 'M', 'E', 'N', 'T', ' ', '\''] ++ t ++ ['\''] ++ x ++ '\n' :: y = [' ', 'C', 'O', 'M', 'M', 'E', 'N', 'T'] ++ (' ' :: '\'' :: (t ++ '\'' :: x ++ '\n' :: y)) := by simp
  have hx1 : '\n' ∉ x ∧ '\'' ∉ x := by rcases hx with rfl | rfl <;> decide
  have hl := takeLine (u := t ++ '\'' :: x) (v := y) (by
    intro h
    rcases List.mem_append.1 h with h | h
    · exact ht h
    · rcases List.mem_cons.1 h with h | h
      · exact absurd h (by decide)
      · exact hx1.1 h)
  unfold matchComment
  rw [e, strip_append]
  dsimp only
  have h1 : (' ' :: '\'' :: (t ++ '\'' :: x ++ '\n' :: y)).takeWhile isSpace = [' '] := by
    rw [List.takeWhile_cons_of_pos (by decide), List.takeWhile_cons_of_neg (by decide)]
  have h2 : (' ' :: '\'' :: (t ++ '\'' :: x ++ '\n' :: y)).dropWhile isSpace = '\'' :: (t ++ '\'' :: x ++ '\n' :: y) := by
    rw [List.dropWhile_cons_of_pos (by decide), List.dropWhile_cons_of_neg (by decide)]
  rw [h1, h2]
  dsimp only [List.isEmpty_cons]
  rw [if_neg (by decide), if_pos rfl]
  unfold greedyQuote
  rw [hl.1, hl.2, afterLast_last hx1.2]

theorem good_line {l : Line} (h : GoodText l.text) : ¬ COMMENT <:+: plainLine l := h.2.2.2

/-- A line with what follows it. -/
theorem comment_line {l : Line} (hg : GoodText l.text ∧ ∀ t, l.comment = some t → '\n' ∉ t) {x y : List Char} (hx : x = [] ∨ x = [',']) :
    sub matchComment (mysqlLine l ++ x ++ '\n' :: y) = plainLine l ++ sub matchComment (x ++ '\n' :: y) := by
  have hn := good_line hg.1
  cases hc : l.comment with
  | none =>
    have e : mysqlLine l = plainLine l := by unfold mysqlLine plainLine; rw [hc]; simp
    rw [e, List.append_assoc]
    rcases hx with rfl | rfl
    · exact comment_skip (.inr (.inr rfl)) hn
    · exact comment_skip (.inr (.inl rfl)) hn
  | some t =>
    have e : mysqlLine l ++ x ++ '\n' :: y = plainLine l ++ ([' ', 'C', 'O', 'M', 'M', 'E', 'N', 'T', ' ', '\''] ++ t ++ ['\''] ++ x ++ '\n' :: y) := by unfold mysqlLine plainLine; rw [hc]; simp
    rw [e]
    have h1 : sub matchComment (plainLine l ++ ([' ', 'C', 'O', 'M', 'M', 'E', 'N', 'T', ' ', '\''] ++ t ++ ['\''] ++ x ++ '\n' :: y)) = plainLine l ++ sub matchComment ([' ', 'C', 'O', 'M', 'M', 'E', 'N', 'T', ' ', '\''] ++ t ++ ['\''] ++ x ++ '\n' :: y) :=
      comment_skip (.inl rfl) hn
    rw [h1, sub_hit comment_matcher (comment_hit (hg.2 t hc) hx)]

theorem joined_cons (l m : List Char) (ls : List (List Char)) : joined (l :: m :: ls) = l ++ [',', '\n'] ++ joined (m :: ls) := rfl

/-- Lines of which the comments are removed. -/
theorem comment_lines (ls : List (List Char × List Char)) (h : ∀ p ∈ ls, ∀ x y, x = [] ∨ x = [','] → sub matchComment (p.1 ++ x ++ '\n' :: y) = p.2 ++ sub matchComment (x ++ '\n' :: y)) (y : List Char) :
    sub matchComment (joined (ls.map Prod.fst) ++ '\n' :: y) = joined (ls.map Prod.snd) ++ sub matchComment ('\n' :: y) := by
  induction ls with
  | nil => rfl
  | cons p ls ih =>
    have hp := h p (List.mem_cons_self ..)
    cases ls with
    | nil =>
      have := hp [] y (.inl rfl)
      rw [List.append_nil] at this
      exact this
    | cons q ls =>
      have ih' := ih fun p hp => h p (List.mem_cons_of_mem _ hp)
      simp only [List.map_cons] at ih' ⊢
      rw [joined_cons, joined_cons]
      have e : p.1 ++ [',', '\n'] ++ joined (q.1 :: ls.map Prod.fst) ++ '\n' :: y = p.1 ++ [','] ++ '\n' :: (joined (q.1 :: ls.map Prod.fst) ++ '\n' :: y) := by simp
      rw [e, hp [','] _ (.inr rfl)]
      show p.2 ++ sub matchComment (',' :: '\n' :: (joined (q.1 :: ls.map Prod.fst) ++ '\n' :: y)) = _
      rw [comment_char _ (by decide), comment_char _ (by decide), ih']
      simp

theorem key_comment {k : List Char} (hk : '\n' ∉ k ∧ ¬ COMMENT <:+: keyLine k) {x y : List Char} (hx : x = [] ∨ x = [',']) : sub matchComment (keyLine k ++ x ++ '\n' :: y) = keyLine k ++ sub matchComment (x ++ '\n' :: y) := by
  rw [List.append_assoc]
  rcases hx with rfl | rfl
  · exact comment_skip (.inr (.inr rfl)) hk.2
  · exact comment_skip (.inr (.inl rfl)) hk.2

/-- The statement without the comments. -/
theorem without_comments {head : List Char} {lines : List Line} {keys : List (List Char)} {options : List Char} (h : GoodTable head lines keys options) :
    ∃ options', '\n' ∉ options' ∧ sub matchComment (mysql head lines keys options) = head ++ ['\n'] ++ joined (lines.map plainLine ++ keys.map keyLine) ++ ['\n', ')'] ++ ([' ', 'E', 'N', 'G', 'I', 'N', 'E'] ++ options') := by
  have hpairs : ∀ p ∈ lines.map (fun l => (mysqlLine l, plainLine l)) ++ keys.map (fun k => (keyLine k, keyLine k)), ∀ x y, x = [] ∨ x = [','] → sub matchComment (p.1 ++ x ++ '\n' :: y) = p.2 ++ sub matchComment (x ++ '\n' :: y) := by
    intro p hp x y hx
    rcases List.mem_append.1 hp with hp | hp
    · obtain ⟨l, hl, rfl⟩ := List.mem_map.1 hp
      exact comment_line (h.good_lines l hl) hx
    · obtain ⟨k, hk, rfl⟩ := List.mem_map.1 hp
      exact key_comment (h.good_keys k hk) hx
  have hall := comment_lines _ hpairs
  simp only [List.map_append, List.map_map] at hall
  have e1 : (Prod.fst ∘ fun l => (mysqlLine l, plainLine l)) = mysqlLine := rfl
  have e2 : (Prod.snd ∘ fun l => (mysqlLine l, plainLine l)) = plainLine := rfl
  have e3 : (Prod.fst ∘ fun k => (keyLine k, keyLine k)) = keyLine := rfl
  have e4 : (Prod.snd ∘ fun k => (keyLine k, keyLine k)) = keyLine := rfl
  rw [e1, e2, e3, e4] at hall
  refine ⟨sub matchComment options, fun hm => h.options_line (sub_mem comment_matcher _ _ (Nat.le_refl _) hm), ?_⟩
  have e : mysql head lines keys options = head ++ '\n' :: (joined (lines.map mysqlLine ++ keys.map keyLine) ++ '\n' :: ')' :: ' ' :: 'E' :: 'N' :: 'G' :: 'I' :: 'N' :: 'E' :: options) := by
    unfold mysql
    simp
  have h0 : sub matchComment (' ' :: 'E' :: 'N' :: 'G' :: 'I' :: 'N' :: 'E' :: options) = ' ' :: 'E' :: 'N' :: 'G' :: 'I' :: 'N' :: 'E' :: sub matchComment options := by
    rw [sub_cons _ _ (by
      unfold matchComment strip
      rw [if_pos rfl]
      unfold strip
      rw [if_neg (by decide)])]
    rw [comment_char _ (by decide), comment_char _ (by decide), comment_char _ (by decide), comment_char _ (by decide), comment_char _ (by decide), comment_char _ (by decide)]
  rw [e, comment_skip (.inr (.inr rfl)) h.head_line.2, comment_char _ (by decide), hall, comment_char _ (by decide), comment_char _ (by decide), h0]
  simp

/-! ### The engine -/

theorem dropSpaces_last {u v : List Char} {c : Char} (hc : isSpace c = false) : ∃ w, w <:+ u ∧ (u ++ c :: v).dropWhile isSpace = w ++ c :: v := by
  induction u with
  | nil => exact ⟨[], List.suffix_refl _, by rw [List.nil_append, List.dropWhile_cons_of_neg (by rw [hc]; decide)]⟩
  | cons x u ih =>
    by_cases hx : isSpace x = true
    · obtain ⟨w, h1, h2⟩ := ih
      exact ⟨w, h1.trans (List.suffix_cons ..), by rw [List.cons_append, List.dropWhile_cons_of_pos hx, h2]⟩
    · exact ⟨x :: u, List.suffix_refl _, by rw [List.cons_append, List.dropWhile_cons_of_neg hx]⟩

theorem without_engine {body options : List Char} (hb : ¬ ['E', 'N', 'G', 'I', 'N', 'E'] <:+: body) (ho : '\n' ∉ options) :
    sub matchEngine (body ++ ')' :: ([' ', 'E', 'N', 'G', 'I', 'N', 'E'] ++ options)) = body ++ [')'] := by
  have hnone : ∀ u', u' <:+ body → matchEngine (u' ++ ')' :: ([' ', 'E', 'N', 'G', 'I', 'N', 'E'] ++ options)) = none := by
    intro u' hu
    obtain ⟨w, hw, he⟩ := dropSpaces_last (u := u') (v := [' ', 'E', 'N', 'G', 'I', 'N', 'E'] ++ options) (c := ')') (by decide)
    unfold matchEngine
    rw [he, strip_none]
    intro h
    rcases w with _ | ⟨x, w⟩
    · obtain ⟨r, hr⟩ := h
      have := congrArg List.head? hr
      simp at this
    · exact hb ((prefix_left (by simp) (by decide) h).isInfix.trans (hw.trans hu).isInfix)
  have h1 : sub matchEngine (body ++ ')' :: ([' ', 'E', 'N', 'G', 'I', 'N', 'E'] ++ options)) = body ++ sub matchEngine (')' :: ([' ', 'E', 'N', 'G', 'I', 'N', 'E'] ++ options)) := sub_skip fun u' _ h => hnone u' h
  rw [h1, sub_cons _ _ (hnone [] (List.nil_suffix ..))]
  have h2 : matchEngine ([' ', 'E', 'N', 'G', 'I', 'N', 'E'] ++ options) = some [] := by
    unfold matchEngine
    have e : ([' ', 'E', 'N', 'G', 'I', 'N', 'E'] ++ options).dropWhile isSpace = ['E', 'N', 'G', 'I', 'N', 'E'] ++ options := by
      show (' ' :: 'E' :: ([ 'N', 'G', 'I', 'N', 'E'] ++ options)).dropWhile isSpace = _
      rw [List.dropWhile_cons_of_pos (by decide), List.dropWhile_cons_of_neg (by decide)]
      rfl
    rw [e, strip_append]
    dsimp only
    rw [dropLine ho]
  rw [sub_hit engine_matcher h2, sub_nil]

/-! ### Keys -/

theorem spaces_of {u v : List Char} : (u ++ v).takeWhile isSpace = u.takeWhile isSpace ++ (if u.all isSpace then v.takeWhile isSpace else []) := by
  induction u with
  | nil => simp
  | cons x u ih =>
    by_cases hx : isSpace x = true
    · rw [List.cons_append, List.takeWhile_cons_of_pos hx, List.takeWhile_cons_of_pos hx, ih]
      simp [hx]
    · rw [List.cons_append, List.takeWhile_cons_of_neg hx, List.takeWhile_cons_of_neg hx]
      simp [hx]

theorem dropSpaces_of {u v : List Char} (h : u.all isSpace = true) : (u ++ v).dropWhile isSpace = v.dropWhile isSpace := by
  induction u with
  | nil => rfl
  | cons x u ih =>
    simp only [List.all_cons, Bool.and_eq_true] at h
    rw [List.cons_append, List.dropWhile_cons_of_pos h.1, ih h.2]

/-- Inside a line there is no key, unless the next line is one. -/
theorem key_none {u v : List Char} (hu : '\n' ∉ u) (hv : (∃ w, v = ',' :: w) ∨ (∃ w, v = '\n' :: w ∧ ¬ ['K', 'E', 'Y'] <+: w.dropWhile isSpace)) : ∀ u', u' ≠ [] → u' <:+ u → matchKey (u' ++ v) = none := by
  intro u' hne hs
  cases u' with
  | nil => exact absurd rfl hne
  | cons c r =>
    rw [List.cons_append]
    unfold matchKey
    dsimp only
    by_cases hc : c = ','
    · rw [if_pos hc]
      have hr : '\n' ∉ r := fun h => hu (hs.subset (List.mem_cons_of_mem _ h))
      have hr' : '\n' ∉ r.takeWhile isSpace := fun h => hr ((List.takeWhile_prefix _).subset h)
      by_cases hall : r.all isSpace = true
      · rcases hv with ⟨w, rfl⟩ | ⟨w, rfl, hw⟩
        · rw [if_neg]
          rw [spaces_of, if_pos hall, List.takeWhile_cons_of_neg (by decide), List.append_nil]
          simpa using hr'
        · rw [dropSpaces_of hall, List.dropWhile_cons_of_pos (by decide), strip_none hw]
          split <;> rfl
      · rw [if_neg]
        rw [spaces_of, if_neg hall, List.append_nil]
        simpa using hr'
    · rw [if_neg hc]

theorem key_char {c : Char} (s : List Char) (hc : c ≠ ',') : sub matchKey (c :: s) = c :: sub matchKey s := by
  apply sub_cons
  unfold matchKey
  dsimp only
  rw [if_neg hc]

theorem key_text {t : List Char} (s : List Char) (hg : GoodText t) : ¬ ['K', 'E', 'Y'] <+: ([' ', ' '] ++ t ++ '\n' :: s).dropWhile isSpace ∧ ∀ s', ¬ ['K', 'E', 'Y'] <+: ([' ', ' '] ++ t ++ ',' :: s').dropWhile isSpace := by
  obtain ⟨hn, ⟨c, cs, rfl, hsp⟩, hk, _⟩ := hg
  have hd : ∀ v, ([' ', ' '] ++ c :: cs ++ v).dropWhile isSpace = c :: cs ++ v := by
    intro v
    show (' ' :: ' ' :: c :: (cs ++ v)).dropWhile isSpace = _
    rw [List.dropWhile_cons_of_pos (by decide), List.dropWhile_cons_of_pos (by decide), List.dropWhile_cons_of_neg (by rw [hsp]; decide)]
    rfl
  constructor
  · rw [hd]
    exact fun h => hk (prefix_left (by simp) (by decide) h)
  · intro s'
    rw [hd]
    exact fun h => hk (prefix_left (by simp) (by decide) h)

/-- A comma before a line that is not a key stays. -/
theorem key_comma {t v : List Char} (hg : GoodText t) (hv : ∃ w, v = ',' :: w ∨ v = '\n' :: w) : sub matchKey (',' :: '\n' :: ([' ', ' '] ++ t ++ v)) = ',' :: '\n' :: sub matchKey ([' ', ' '] ++ t ++ v) := by
  have hk : ¬ ['K', 'E', 'Y'] <+: ([' ', ' '] ++ t ++ v).dropWhile isSpace := by
    obtain ⟨w, rfl | rfl⟩ := hv
    · exact (key_text [] hg).2 w
    · exact (key_text w hg).1
  rw [sub_cons, key_char _ (by decide)]
  unfold matchKey
  dsimp only
  rw [if_pos rfl, List.dropWhile_cons_of_pos (by decide), strip_none hk]
  split <;> rfl

/-- The lines that are not keys stay. -/
theorem key_lines (lines : List Line) (hl : ∀ l ∈ lines, GoodText l.text) (hne : lines ≠ []) {v : List Char} (hv : (∃ w, v = ',' :: w) ∨ ∃ w, v = '\n' :: w ∧ ¬ ['K', 'E', 'Y'] <+: w.dropWhile isSpace) :
    sub matchKey (joined (lines.map plainLine) ++ v) = joined (lines.map plainLine) ++ sub matchKey v := by
  induction lines with
  | nil => exact absurd rfl hne
  | cons l ls ih =>
    have hg := hl l (List.mem_cons_self ..)
    have hnl : '\n' ∉ plainLine l := by
      unfold plainLine
      intro h
      rcases List.mem_append.1 h with h | h
      · exact absurd h (by decide)
      · exact hg.1 h
    cases ls with
    | nil => exact sub_skip (key_none hnl hv)
    | cons m ls =>
      simp only [List.map_cons] at ih ⊢
      rw [joined_cons]
      have e : plainLine l ++ [',', '\n'] ++ joined (plainLine m :: ls.map plainLine) ++ v = plainLine l ++ ',' :: '\n' :: (joined (plainLine m :: ls.map plainLine) ++ v) := by simp
      rw [e, sub_skip (key_none hnl (.inl ⟨_, rfl⟩))]
      have hm : ∃ v', (∃ w, v' = ',' :: w ∨ v' = '\n' :: w) ∧ joined (plainLine m :: ls.map plainLine) ++ v = [' ', ' '] ++ m.text ++ v' := by
        cases ls with
        | nil =>
          refine ⟨v, ?_, rfl⟩
          rcases hv with ⟨w, h⟩ | ⟨w, h, _⟩
          · exact ⟨w, .inl h⟩
          · exact ⟨w, .inr h⟩
        | cons n ls =>
          refine ⟨[',', '\n'] ++ joined (plainLine n :: ls.map plainLine) ++ v, ⟨_, .inl rfl⟩, ?_⟩
          rw [List.map_cons, joined_cons]
          simp [plainLine]
      obtain ⟨v', hv', he⟩ := hm
      have hcm := key_comma (hl m (List.mem_cons_of_mem _ (List.mem_cons_self ..))) hv'
      rw [he, hcm, ← he, ih (fun l h => hl l (List.mem_cons_of_mem _ h)) (by simp)]
      simp

/-- A key is removed with the comma before it and the end of its line. -/
theorem key_hit {k x v : List Char} (hk : '\n' ∉ k) (hx : x = [] ∨ x = [',']) : matchKey (',' :: '\n' :: (keyLine k ++ x ++ '\n' :: v)) = some v := by
  have e : keyLine k ++ x ++ '\n' :: v = ' ' :: ' ' :: (['K', 'E', 'Y'] ++ (' ' :: k ++ x ++ '\n' :: v)) := by unfold keyLine; simp
  have hx1 : '\n' ∉ x := by rcases hx with rfl | rfl <;> decide
  have hl := takeLine (u := ' ' :: k ++ x) (v := v) (by
    intro h
    rcases List.mem_append.1 h with h | h
    · rcases List.mem_cons.1 h with h | h
      · exact absurd h (by decide)
      · exact hk h
    · exact hx1 h)
  unfold matchKey
  dsimp only
  rw [if_pos rfl, e]
  have h1 : ('\n' :: ' ' :: ' ' :: (['K', 'E', 'Y'] ++ (' ' :: k ++ x ++ '\n' :: v))).takeWhile isSpace = ['\n', ' ', ' '] := by
    rw [List.takeWhile_cons_of_pos (by decide), List.takeWhile_cons_of_pos (by decide), List.takeWhile_cons_of_pos (by decide)]
    show _ :: _ :: _ :: List.takeWhile isSpace ('K' :: _) = _
    rw [List.takeWhile_cons_of_neg (by decide)]
  have h2 : ('\n' :: ' ' :: ' ' :: (['K', 'E', 'Y'] ++ (' ' :: k ++ x ++ '\n' :: v))).dropWhile isSpace = ['K', 'E', 'Y'] ++ (' ' :: k ++ x ++ '\n' :: v) := by
    rw [List.dropWhile_cons_of_pos (by decide), List.dropWhile_cons_of_pos (by decide), List.dropWhile_cons_of_pos (by decide)]
    show List.dropWhile isSpace ('K' :: _) = _
    rw [List.dropWhile_cons_of_neg (by decide)]
    rfl
  rw [h1, h2, if_pos (by decide), strip_append]
  dsimp only
  unfold keyEnd
  rw [hl.2]

theorem joined_append (a : List (List Char)) (l : List Char) (ls : List (List Char)) (ha : a ≠ []) : joined (a ++ l :: ls) = joined a ++ [',', '\n'] ++ joined (l :: ls) := by
  induction a with
  | nil => exact absurd rfl ha
  | cons x a ih =>
    cases a with
    | nil => rfl
    | cons y a =>
      rw [List.cons_append, List.cons_append, joined_cons, joined_cons, ← List.cons_append, ih (by simp)]
      simp

/-- The statement up to the keys. -/
theorem convert_body {head : List Char} {lines : List Line} {keys : List (List Char)} {options : List Char} (h : GoodTable head lines keys options) :
    convert (mysql head lines keys options) = sub matchKey (head ++ '\n' :: (joined (lines.map plainLine ++ keys.map keyLine) ++ ['\n', ')'])) := by
  obtain ⟨o, ho, he⟩ := without_comments h
  unfold convert
  rw [he]
  have e : head ++ ['\n'] ++ joined (lines.map plainLine ++ keys.map keyLine) ++ ['\n', ')'] ++ ([' ', 'E', 'N', 'G', 'I', 'N', 'E'] ++ o) =
      (head ++ ['\n'] ++ joined (lines.map plainLine ++ keys.map keyLine) ++ ['\n']) ++ ')' :: ([' ', 'E', 'N', 'G', 'I', 'N', 'E'] ++ o) := by simp
  rw [e, without_engine _ ho]
  · congr 1
    simp
  · intro hi
    apply h.one_engine
    obtain ⟨a, b, hab⟩ := hi
    rcases List.eq_nil_or_concat b with rfl | ⟨b, c, rfl⟩
    · exfalso
      rw [List.append_nil] at hab
      have := congrArg List.getLast? hab
      rw [List.getLast?_append, List.getLast?_append] at this
      exact absurd (Option.some.inj this) (by decide)
    · rw [List.concat_eq_append, ← List.append_assoc] at hab
      exact ⟨a, b, (List.append_inj' hab rfl).1⟩

theorem key_head {head : List Char} {lines : List Line} {keys : List (List Char)} {options : List Char} (h : GoodTable head lines keys options) (v : List Char) (hv : ∃ w, v = ',' :: w ∨ v = '\n' :: w) :
    sub matchKey (head ++ '\n' :: (joined (lines.map plainLine) ++ v)) = head ++ '\n' :: sub matchKey (joined (lines.map plainLine) ++ v) := by
  obtain ⟨l, ls, rfl⟩ : ∃ l ls, lines = l :: ls := by
    cases hl : lines with
    | nil => exact absurd hl h.some_line
    | cons l ls => exact ⟨l, ls, rfl⟩
  have hg := (h.good_lines l (List.mem_cons_self ..)).1
  rw [sub_skip (key_none h.head_line.1 (.inr ⟨_, rfl, ?_⟩)), key_char _ (by decide)]
  have hm : ∃ v', (∃ w, v' = ',' :: w ∨ v' = '\n' :: w) ∧ joined ((l :: ls).map plainLine) ++ v = [' ', ' '] ++ l.text ++ v' := by
    cases ls with
    | nil => exact ⟨v, hv, rfl⟩
    | cons n ls =>
      refine ⟨[',', '\n'] ++ joined (plainLine n :: ls.map plainLine) ++ v, ⟨_, .inl rfl⟩, ?_⟩
      rw [List.map_cons, List.map_cons, joined_cons]
      simp [plainLine]
  obtain ⟨v', ⟨w, rfl | rfl⟩, he⟩ := hm
  · rw [he]; exact (key_text [] hg).2 w
  · rw [he]; exact (key_text w hg).1

theorem no_key_end : ¬ ['K', 'E', 'Y'] <+: [')'].dropWhile isSpace := by decide

theorem sub_end : sub matchKey ['\n', ')'] = ['\n', ')'] := by decide

/-- C115: without indices, the statement is that of MySQL without the comments and the engine. -/
theorem convert_plain {head : List Char} {lines : List Line} {options : List Char} (h : GoodTable head lines [] options) :
    convert (mysql head lines [] options) = head ++ ['\n'] ++ joined (lines.map plainLine) ++ ['\n', ')'] := by
  rw [convert_body h, List.map_nil, List.append_nil, key_head h _ ⟨_, .inr rfl⟩, key_lines lines (fun l hl => (h.good_lines l hl).1) h.some_line (.inr ⟨_, rfl, no_key_end⟩), sub_end]
  simp

/-- C115: with one index, it is removed too. -/
theorem convert_key {head : List Char} {lines : List Line} {key : List Char} {options : List Char} (h : GoodTable head lines [key] options) :
    convert (mysql head lines [key] options) = head ++ ['\n'] ++ joined (lines.map plainLine) ++ [')'] := by
  have hne : lines.map plainLine ≠ [] := by simpa using h.some_line
  rw [convert_body h, List.map_cons, List.map_nil, joined_append _ _ _ hne]
  have e : joined (lines.map plainLine) ++ [',', '\n'] ++ joined [keyLine key] ++ ['\n', ')'] = joined (lines.map plainLine) ++ ',' :: '\n' :: (keyLine key ++ [] ++ '\n' :: [')']) := by simp [joined]
  rw [e, key_head h _ ⟨_, .inl rfl⟩, key_lines lines (fun l hl => (h.good_lines l hl).1) h.some_line (.inl ⟨_, rfl⟩), sub_hit key_matcher (key_hit (h.good_keys key (by simp)).1 (.inl rfl))]
  have : sub matchKey [')'] = [')'] := by decide
  rw [this]
  simp

/-- C115 (finding): with two indices the second one stays, after the last column and without a comma. -/
theorem convert_two_keys {head : List Char} {lines : List Line} {key key' : List Char} {options : List Char} (h : GoodTable head lines [key, key'] options) :
    convert (mysql head lines [key, key'] options) = head ++ ['\n'] ++ joined (lines.map plainLine) ++ keyLine key' ++ ['\n', ')'] := by
  have hne : lines.map plainLine ≠ [] := by simpa using h.some_line
  rw [convert_body h, List.map_cons, List.map_cons, List.map_nil, joined_append _ _ _ hne]
  have e : joined (lines.map plainLine) ++ [',', '\n'] ++ joined [keyLine key, keyLine key'] ++ ['\n', ')'] = joined (lines.map plainLine) ++ ',' :: '\n' :: (keyLine key ++ [','] ++ '\n' :: (keyLine key' ++ ['\n', ')'])) := by simp [joined]
  rw [e, key_head h _ ⟨_, .inl rfl⟩, key_lines lines (fun l hl => (h.good_lines l hl).1) h.some_line (.inl ⟨_, rfl⟩), sub_hit key_matcher (key_hit (h.good_keys key (by simp)).1 (.inr rfl))]
  have hnl : '\n' ∉ keyLine key' := by
    unfold keyLine
    intro hm
    rcases List.mem_append.1 hm with hm | hm
    · exact absurd hm (by decide)
    · exact (h.good_keys key' (by simp)).1 hm
  rw [sub_skip (key_none hnl (.inr ⟨_, rfl, no_key_end⟩)), sub_end]
  simp

/-! ### Examples -/

/-- "CREATE TABLE `T` (" -/
def exHead : List Char := ['T', ' ', '(']

/-- Two columns, the second one with a comment that has quotes, ENGINE and KEY in it. -/
def exLines : List Line := [⟨['`', 'a', '`', ' ', 'd', '(', '1', ',', '2', ')'], none⟩, ⟨['`', 'b', '`'], some ['x', '\'', ',', ' ', 'E', 'N', 'G', 'I', 'N', 'E']⟩]

theorem exGood (keys : List (List Char)) (h : keys = [] ∨ keys = [['k']] ∨ keys = [['k'], ['m']]) : GoodTable exHead exLines keys ['=', 'M', ' ', 'C', 'O', 'M', 'M', 'E', 'N', 'T', '=', '\'', 'x', '\''] := by
  refine ⟨by simp [exLines], by decide, ?_, ?_, ?_, by decide⟩
  · intro l hl
    simp only [exLines, List.mem_cons, List.not_mem_nil, or_false] at hl
    rcases hl with rfl | rfl
    · exact ⟨⟨by decide, ⟨_, _, rfl, by decide⟩, by decide, by decide⟩, fun t h => by cases h⟩
    · exact ⟨⟨by decide, ⟨_, _, rfl, by decide⟩, by decide, by decide⟩, fun t h => by obtain rfl := Option.some.inj h; decide⟩
  · rcases h with rfl | rfl | rfl <;> decide
  · rcases h with rfl | rfl | rfl <;> decide

example : convert (mysql exHead exLines [['k']] ['=', 'M', ' ', 'C', 'O', 'M', 'M', 'E', 'N', 'T', '=', '\'', 'x', '\'']) =
    ['T', ' ', '(', '\n', ' ', ' ', '`', 'a', '`', ' ', 'd', '(', '1', ',', '2', ')', ',', '\n', ' ', ' ', '`', 'b', '`', ')'] := by
  rw [convert_key (exGood _ (.inr (.inl rfl)))]
  decide

example : convert (mysql exHead exLines [] ['=', 'M', ' ', 'C', 'O', 'M', 'M', 'E', 'N', 'T', '=', '\'', 'x', '\'']) =
    ['T', ' ', '(', '\n', ' ', ' ', '`', 'a', '`', ' ', 'd', '(', '1', ',', '2', ')', ',', '\n', ' ', ' ', '`', 'b', '`', '\n', ')'] := by
  rw [convert_plain (exGood _ (.inl rfl))]
  decide

example : convert (mysql exHead exLines [['k'], ['m']] ['=', 'M', ' ', 'C', 'O', 'M', 'M', 'E', 'N', 'T', '=', '\'', 'x', '\'']) =
    ['T', ' ', '(', '\n', ' ', ' ', '`', 'a', '`', ' ', 'd', '(', '1', ',', '2', ')', ',', '\n', ' ', ' ', '`', 'b', '`', ' ', ' ', 'K', 'E', 'Y', ' ', 'm', '\n', ')'] := by
  rw [convert_two_keys (exGood _ (.inr (.inr rfl)))]
  decide

end Verif.SqlConvert
