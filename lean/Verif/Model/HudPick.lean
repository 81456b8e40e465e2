import Verif.Model.Hud
/-
`x/platform/hud.go:302-377`: the list from which a profile to collect is added.
Simplified: a profile is its name (`runtime/pprof` has one profile for a name); `all` is what
`pprof.Profiles()` returns, `have_` the names in `Platform.pprofProfiles`.
-/
set_option autoImplicit false

namespace Anansi.Hud
open Geom Evq

/-- `hud.go:321-334`: the profiles not added so far. -/
def offered (all have_ : List Bytes) : List Bytes :=
  all.filter fun p => !have_.any fun q => decide (q = p)

/-- `hud.go:341-351`: the list is drawn; `mx` is `outBounds.Max.X`.  The box, whose lower edge
moves, and the screen. -/
def pickRows (gr : Nat → Bool) (t : Theme) (mx : Int) : List Bytes → Rect → VScreen → Except Fault (Rect × VScreen)
  | [], box, v => .ok (box, v)
  | name :: l, box, v =>
    (mkRect box.min.x v.sc.cur.pt.y box.max.x (v.sc.cur.pt.y + 1)).bind fun at_ =>
    let over := ptIn t.mouse at_
    let v := if over then v.writeSGR [t.button] else v
    (v.write gr name).bind fun v =>
    let n := mx - 1 - v.sc.cur.pt.x
    -- `strings.Repeat` panics for a negative count
    if n < 0 then .error .panic
    else
      (v.write gr (List.replicate n.toNat 0x20)).bind fun v =>
      let v := if over then v.writeSGR [t.select] else v
      (mkPt box.min.x (v.sc.cur.pt.y + 1)).bind fun p =>
      let v := goto v p
      pickRows gr t mx l { box with max := ⟨box.max.x, v.sc.cur.pt.y⟩ } v

/-- `hud.go:355-370`: the clicks in the list: the events, the profiles added, and whether any
left press was found (then `hud.Active = 0`). -/
def pickClicks (box : Rect) (l : List Bytes) : Events → Except Fault (Events × List Bytes × Bool)
  | [] => .ok ([], [], false)
  | e :: es =>
    if e.kind = .mouse ∧ Mouse.isPress e.ms = some 1 then
      if ptIn e.pt box = true then
        -- the point is in the box, so the index is not negative
        match l[(e.pt.y - box.min.y).toNat]? with
        | none => .error .panic
        | some p => (pickClicks box l es).bind fun r => .ok (e.struck :: r.1, p :: r.2.1, true)
      else (pickClicks box l es).bind fun r => .ok (e :: r.1, r.2.1, true)
    else (pickClicks box l es).bind fun r => .ok (e :: r.1, r.2.1, r.2.2)

/-- What the selector changes. -/
structure Pick where
  active : Nat
  have_ : List Bytes
  es : Events
  v : VScreen

/-- "PProf" and "Add". -/
def pprofKey : Bytes := [0x50, 0x50, 0x72, 0x6F, 0x66]
def addLabel : Bytes := [0x41, 0x64, 0x64]

/-- `hud.go:302-377` `drawPProfSelector`; `id` is `hud.nextID()`, `dw` is `hud.detailWidth`. -/
def drawSelector (gr : Nat → Bool) (dw : Int) (t : Theme) (id : Nat) (all : List Bytes) (s : Pick) : Except Fault Pick :=
  (calcKVBox dw s.v pprofKey).bind fun b =>
  let mx := s.v.sc.grid.rect.max.x
  ((goto s.v b.1.min).write gr (pprofKey ++ [0x20])).bind fun v =>
  let v := goto v b.2.min
  let s :=
    if s.active ≠ id then
      let c := countPressesIn b.2 1 0 s.es
      { s with es := c.1, active := if c.2 % 2 = 1 then id else s.active }
    else s
  if s.active = id then
    let l := offered all s.have_
    if l = [] then .ok { s with v }
    else
      (pickRows gr t mx l b.2 (v.writeSGR [t.select])).bind fun r =>
      let v := r.2.writeSGR [Sgr.clear]
      (pickClicks r.1 l s.es).bind fun c =>
      .ok { active := if c.2.2 then 0 else s.active, have_ := s.have_ ++ c.2.1, es := c.1, v := goto v r.1.max }
  else
    (drawButton gr t b.2 addLabel v).bind fun v => .ok { s with v := goto v b.2.max }

end Anansi.Hud
