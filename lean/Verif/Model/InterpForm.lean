import Mathlib.Algebra.Field.Basic

/-!
# Expressions of the compact spline evaluations

Written by tools/interp_forms.py from src/spline/interp1Dcomp.c, interp2Dcomp.c and interp3Dcomp.c.  `C i` is
`str->c[i]`, `n` the index of the cell and `x1`, `y1`, `z1` the jumps to the next point along each axis.
-/
namespace Ascot.Interp
variable {K : Type} [Field K]

/-- src/spline/interp1Dcomp.c:155-157, with the helper variables of the same function. -/
def form1f (C : Int → K) (n x1 : Int) (dx xg : K) : K :=
  let dx3 := dx * (dx*dx - 1)
  let dxi := 1 - dx
  let dxi3 := dxi * (dxi*dxi - 1)
  let xg2 := xg*xg
  dxi *C (n+0)+dx *C (n+x1+0)
    +(xg2/6)*(dxi3*C (n+1)+dx3*C (n+x1+1))

/-- src/spline/interp1Dcomp.c:218-220, with the helper variables of the same function. -/
def form1df0 (C : Int → K) (n x1 : Int) (dx xg : K) : K :=
  let dx3 := dx * (dx*dx - 1)
  let dxi := 1 - dx
  let dxi3 := dxi * (dxi*dxi - 1)
  let xg2 := xg*xg
  dxi *C (n+0)+dx *C (n+x1+0)
    +(xg2/6)*(dxi3*C (n+1)+dx3*C (n+x1+1))

/-- src/spline/interp1Dcomp.c:223-225, with the helper variables of the same function. -/
def form1df1 (C : Int → K) (n x1 : Int) (dx xg : K) : K :=
  let dx3dx := 3*dx*dx - 1
  let dxi := 1 - dx
  let dxi3dx := -3*dxi*dxi + 1
  let xgi := 1 / xg
  xgi*(C (n+x1+0)-       C (n+0))
    +(xg/6)*(dx3dx*C (n+x1+1)+dxi3dx*C (n+1))

/-- src/spline/interp1Dcomp.c:228-228, with the helper variables of the same function. -/
def form1df2 (C : Int → K) (n x1 : Int) (dx xg : K) : K :=
  let dxi := 1 - dx
  dxi*C (n+1)+dx*C (n+x1+1)

/-- src/spline/interp2Dcomp.c:254-265, with the helper variables of the same function. -/
def form2f (C : Int → K) (n x1 y1 : Int) (dx dy xg yg : K) : K :=
  let dx3 := dx * (dx*dx - 1)
  let dxi := 1 - dx
  let dxi3 := dxi * (dxi*dxi - 1)
  let xg2 := xg*xg
  let dy3 := dy * (dy*dy - 1)
  let dyi := 1 - dy
  let dyi3 := dyi * (dyi*dyi - 1)
  let yg2 := yg*yg
  (
    dxi*(dyi*C (n)+dy*C (n+y1))
    +dx*(dyi*C (n+x1)+dy*C (n+y1+x1)))
    +(xg2/6)*(
    dxi3*(dyi*C (n+1) + dy*C (n+y1+1))
    +dx3*(dyi*C (n+x1+1) + dy*C (n+y1+x1+1)))
    +(yg2/6)*(
    dxi*(dyi3*C (n+2)+dy3*C (n+y1+2))
    +dx*(dyi3*C (n+x1+2)+dy3*C (n+y1+x1+2)))
    +(xg2*yg2/36)*(
    dxi3*(dyi3*C (n+3)+dy3*C (n+y1+3))
    +dx3*(dyi3*C (n+x1+3)+dy3*C (n+y1+x1+3)))

/-- src/spline/interp2Dcomp.c:355-366, with the helper variables of the same function. -/
def form2df0 (C : Int → K) (n x1 y1 : Int) (dx dy xg yg : K) : K :=
  let dx3 := dx * (dx*dx - 1)
  let dxi := 1 - dx
  let dxi3 := dxi * (dxi*dxi - 1)
  let xg2 := xg*xg
  let dy3 := dy * (dy*dy - 1)
  let dyi := 1 - dy
  let dyi3 := dyi * (dyi*dyi - 1)
  let yg2 := yg*yg
  (
    dxi*(dyi*C (n)+dy*C (n+y1))
    +dx*(dyi*C (n+x1)+dy*C (n+y1+x1)))
    +(xg2/6)*(
    dxi3*(dyi*C (n+1) + dy*C (n+y1+1))
    +dx3*(dyi*C (n+x1+1) + dy*C (n+y1+x1+1)))
    +(yg2/6)*(
    dxi*(dyi3*C (n+2)+dy3*C (n+y1+2))
    +dx*(dyi3*C (n+x1+2)+dy3*C (n+y1+x1+2)))
    +(xg2*yg2/36)*(
    dxi3*(dyi3*C (n+3)+dy3*C (n+y1+3))
    +dx3*(dyi3*C (n+x1+3)+dy3*C (n+y1+x1+3)))

/-- src/spline/interp2Dcomp.c:369-380, with the helper variables of the same function. -/
def form2df1 (C : Int → K) (n x1 y1 : Int) (dx dy xg yg : K) : K :=
  let dx3dx := 3*dx*dx - 1
  let dxi := 1 - dx
  let dxi3dx := -3*dxi*dxi + 1
  let xgi := 1 / xg
  let dy3 := dy * (dy*dy - 1)
  let dyi := 1 - dy
  let dyi3 := dyi * (dyi*dyi - 1)
  let yg2 := yg*yg
  xgi*(
    -(dyi*C (n)  +dy*C (n+y1))
    +(dyi*C (n+x1)+dy*C (n+y1+x1)))
    +(xg/6)*(
    dxi3dx*(dyi*C (n+1)  +dy*C (n+y1+1))
    +dx3dx*(dyi*C (n+x1+1)+dy*C (n+y1+x1+1)))
    +(xgi*yg2/6)*(
    -(dyi3*C (n+2)  +dy3*C (n+y1+2))
    +(dyi3*C (n+x1+2)+dy3*C (n+y1+x1+2)))
    +(xg*yg2/36)*(
    dxi3dx*(dyi3*C (n+3)  +dy3*C (n+y1+3))
    +dx3dx*(dyi3*C (n+x1+3)+dy3*C (n+y1+x1+3)))

/-- src/spline/interp2Dcomp.c:383-394, with the helper variables of the same function. -/
def form2df2 (C : Int → K) (n x1 y1 : Int) (dx dy xg yg : K) : K :=
  let dx3 := dx * (dx*dx - 1)
  let dxi := 1 - dx
  let dxi3 := dxi * (dxi*dxi - 1)
  let xg2 := xg*xg
  let dy3dy := 3*dy*dy - 1
  let dyi := 1 - dy
  let dyi3dy := -3*dyi*dyi + 1
  let ygi := 1 / yg
  ygi*(
    dxi*(-C (n)  +C (n+y1))
    +dx*(-C (n+x1)+C (n+y1+x1)))
    +(xg2*ygi/6)*(
    dxi3*(-C (n+1)  +C (n+y1+1))
    +dx3*(-C (n+x1+1)+C (n+y1+x1+1)))
    +(yg/6)*(
    dxi*(dyi3dy*C (n+2)  +dy3dy*C (n+y1+2))
    +dx*(dyi3dy*C (n+x1+2)+dy3dy*C (n+y1+x1+2)))
    +(xg2*yg/36)*(
    dxi3*(dyi3dy*C (n+3)  +dy3dy*C (n+y1+3))
    +dx3*(dyi3dy*C (n+x1+3)+dy3dy*C (n+y1+x1+3)))

/-- src/spline/interp2Dcomp.c:397-402, with the helper variables of the same function. -/
def form2df3 (C : Int → K) (n x1 y1 : Int) (dx dy xg yg : K) : K :=
  let dxi := 1 - dx
  let dy3 := dy * (dy*dy - 1)
  let dyi := 1 - dy
  let dyi3 := dyi * (dyi*dyi - 1)
  let yg2 := yg*yg
  (
    dxi*(dyi*C (n+1)  +dy*C (n+y1+1))
    +dx*(dyi*C (n+x1+1)+dy*C (n+y1+x1+1)))
    +(yg2/6)*(
    dxi*(dyi3*C (n+3)  +dy3*C (n+y1+3))
    +dx*(dyi3*C (n+x1+3)+dy3*C (n+y1+x1+3)))

/-- src/spline/interp2Dcomp.c:405-410, with the helper variables of the same function. -/
def form2df4 (C : Int → K) (n x1 y1 : Int) (dx dy xg yg : K) : K :=
  let dx3 := dx * (dx*dx - 1)
  let dxi := 1 - dx
  let dxi3 := dxi * (dxi*dxi - 1)
  let xg2 := xg*xg
  let dyi := 1 - dy
  (
    dxi*(dyi*C (n+2)  +dy*C (n+y1+2))
    +dx*(dyi*C (n+x1+2)+dy*C (n+y1+x1+2)))
    +xg2/6*(
    dxi3*(dyi*C (n+3)  +dy*C (n+y1+3))
    +dx3*(dyi*C (n+x1+3)+dy*C (n+y1+x1+3)))

/-- src/spline/interp2Dcomp.c:413-424, with the helper variables of the same function. -/
def form2df5 (C : Int → K) (n x1 y1 : Int) (dx dy xg yg : K) : K :=
  let dx3dx := 3*dx*dx - 1
  let dxi := 1 - dx
  let dxi3dx := -3*dxi*dxi + 1
  let xgi := 1 / xg
  let dy3dy := 3*dy*dy - 1
  let dyi := 1 - dy
  let dyi3dy := -3*dyi*dyi + 1
  let ygi := 1 / yg
  xgi*ygi*(
    C (n)  -C (n+y1)
    -C (n+x1)+C (n+y1+x1))
    +(xg/6*ygi)*(
    dxi3dx*(-C (n+1)  +C (n+y1+1))
    +dx3dx*(-C (n+x1+1)+C (n+y1+x1+1)))
    +(xgi/6*yg)*(
    -(dyi3dy*C (n+2)  +dy3dy*C (n+y1+2))
    +(dyi3dy*C (n+x1+2)+dy3dy*C (n+y1+x1+2)))
    +(xg*yg/36)*(
    dxi3dx*(dyi3dy*C (n+3)  +dy3dy*C (n+y1+3))
    +dx3dx*(dyi3dy*C (n+x1+3)+dy3dy*C (n+y1+x1+3)))

/-- src/spline/interp3Dcomp.c:365-420, with the helper variables of the same function. -/
def form3f (C : Int → K) (n x1 y1 z1 : Int) (dx dy dz xg yg zg : K) : K :=
  let dx3 := dx*dx*dx - dx
  let dxi := 1 - dx
  let dxi3 := dxi*dxi*dxi - dxi
  let xg2 := xg*xg
  let dy3 := dy*dy*dy - dy
  let dyi := 1 - dy
  let dyi3 := dyi*dyi*dyi - dyi
  let yg2 := yg*yg
  let dz3 := dz*dz*dz - dz
  let dzi := 1 - dz
  let dzi3 := dzi*dzi*dzi - dzi
  let zg2 := zg*zg
  (
    dzi*(
    dxi*(dyi*C (n+0)+dy*C (n+y1+0))
    +dx*(dyi*C (n+x1+0)+dy*C (n+y1+x1+0)))
    +dz*(
    dxi*(dyi*C (n+z1+0)+dy*C (n+y1+z1+0))
    +dx*(dyi*C (n+x1+z1+0)+dy*C (n+y1+z1+x1+0))))
    +xg2/6*(
    dzi*(
    dxi3*(dyi*C (n+1)+dy*C (n+y1+1))
    +dx3*(dyi*C (n+x1+1)+dy*C (n+y1+x1+1)))
    +dz*(
    dxi3*(dyi*C (n+z1+1)+dy*C (n+y1+z1+1))
    +dx3*(dyi*C (n+x1+z1+1)+dy*C (n+y1+z1+x1+1))))
    +yg2/6*(
    dzi*(
    dxi*(dyi3*C (n+2)+dy3*C (n+y1+2))
    +dx*(dyi3*C (n+x1+2)+dy3*C (n+y1+x1+2)))
    +dz*(
    dxi*(dyi3*C (n+z1+2)+dy3*C (n+y1+z1+2))
    +dx*(dyi3*C (n+x1+z1+2)+dy3*C (n+y1+z1+x1+2))))
    +zg2/6*(
    dzi3*(
    dxi*(dyi*C (n+3)+dy*C (n+y1+3))
    +dx*(dyi*C (n+x1+3)+dy*C (n+y1+x1+3)))
    +dz3*(
    dxi*(dyi*C (n+z1+3)+dy*C (n+y1+z1+3))
    +dx*(dyi*C (n+x1+z1+3)+dy*C (n+y1+z1+x1+3))))
    +xg2*yg2/36*(
    dzi*(
    dxi3*(dyi3*C (n+4)+dy3*C (n+y1+4))
    +dx3*(dyi3*C (n+x1+4)+dy3*C (n+y1+x1+4)))
    +dz*(
    dxi3*(dyi3*C (n+z1+4)+dy3*C (n+y1+z1+4))
    +dx3*(dyi3*C (n+x1+z1+4)+dy3*C (n+y1+z1+x1+4))))
    +xg2*zg2/36*(
    dzi3*(
    dxi3*(dyi*C (n+5)+dy*C (n+y1+5))
    +dx3*(dyi*C (n+x1+5)+dy*C (n+y1+x1+5)))
    +dz3*(
    dxi3*(dyi*C (n+z1+5)+dy*C (n+y1+z1+5))
    +dx3*(dyi*C (n+x1+z1+5)+dy*C (n+y1+z1+x1+5))))
    +yg2*zg2/36*(
    dzi3*(
    dxi*(dyi3*C (n+6)+dy3*C (n+y1+6))
    +dx*(dyi3*C (n+x1+6)+dy3*C (n+y1+x1+6)))
    +dz3*(
    dxi*(dyi3*C (n+z1+6)+dy3*C (n+y1+z1+6))
    +dx*(dyi3*C (n+x1+z1+6)+dy3*C (n+y1+z1+x1+6))))
    +xg2*yg2*zg2/216*(
    dzi3*(
    dxi3*(dyi3*C (n+7)+dy3*C (n+y1+7))
    +dx3*(dyi3*C (n+x1+7)+dy3*C (n+y1+x1+7)))
    +dz3*(
    dxi3*(dyi3*C (n+z1+7)+dy3*C (n+y1+z1+7))
    +dx3*(dyi3*C (n+x1+z1+7)+dy3*C (n+y1+z1+x1+7))))

/-- src/spline/interp3Dcomp.c:623-678, with the helper variables of the same function. -/
def form3df0 (C : Int → K) (n x1 y1 z1 : Int) (dx dy dz xg yg zg : K) : K :=
  let dx3 := dx*dx*dx - dx
  let dxi := 1 - dx
  let dxi3 := dxi*dxi*dxi - dxi
  let xg2 := xg*xg
  let dy3 := dy*dy*dy - dy
  let dyi := 1 - dy
  let dyi3 := dyi*dyi*dyi - dyi
  let yg2 := yg*yg
  let dz3 := dz*dz*dz - dz
  let dzi := 1 - dz
  let dzi3 := dzi*dzi*dzi - dzi
  let zg2 := zg*zg
  (
    dzi*(
    dxi*(dyi*C (n+0)+dy*C (n+y1+0))
    +dx*(dyi*C (n+x1+0)+dy*C (n+y1+x1+0)))
    +dz*(
    dxi*(dyi*C (n+z1+0)+dy*C (n+z1+y1+0))
    +dx*(dyi*C (n+z1+x1+0)+dy*C (n+z1+y1+x1+0))))
    +xg2/6*(
    dzi*(
    dxi3*(dyi*C (n+1)+dy*C (n+y1+1))
    +dx3*(dyi*C (n+x1+1)+dy*C (n+y1+x1+1)))
    +dz*(
    dxi3*(dyi*C (n+z1+1)+dy*C (n+z1+y1+1))
    +dx3*(dyi*C (n+z1+x1+1)+dy*C (n+z1+y1+x1+1))))
    +yg2/6*(
    dzi*(
    dxi*(dyi3*C (n+2)+dy3*C (n+y1+2))
    +dx*(dyi3*C (n+x1+2)+dy3*C (n+y1+x1+2)))
    +dz*(
    dxi*(dyi3*C (n+z1+2)+dy3*C (n+z1+y1+2))
    +dx*(dyi3*C (n+z1+x1+2)+dy3*C (n+z1+y1+x1+2))))
    +zg2/6*(
    dzi3*(
    dxi*(dyi*C (n+3)+dy*C (n+y1+3))
    +dx*(dyi*C (n+x1+3)+dy*C (n+y1+x1+3)))
    +dz3*(
    dxi*(dyi*C (n+z1+3)+dy*C (n+z1+y1+3))
    +dx*(dyi*C (n+z1+x1+3)+dy*C (n+z1+y1+x1+3))))
    +xg2*yg2/36*(
    dzi*(
    dxi3*(dyi3*C (n+4)+dy3*C (n+y1+4))
    +dx3*(dyi3*C (n+x1+4)+dy3*C (n+y1+x1+4)))
    +dz*(
    dxi3*(dyi3*C (n+z1+4)+dy3*C (n+z1+y1+4))
    +dx3*(dyi3*C (n+z1+x1+4)+dy3*C (n+z1+y1+x1+4))))
    +xg2*zg2/36*(
    dzi3*(
    dxi3*(dyi*C (n+5)+dy*C (n+y1+5))
    +dx3*(dyi*C (n+x1+5)+dy*C (n+y1+x1+5)))
    +dz3*(
    dxi3*(dyi*C (n+z1+5)+dy*C (n+z1+y1+5))
    +dx3*(dyi*C (n+z1+x1+5)+dy*C (n+z1+y1+x1+5))))
    +yg2*zg2/36*(
    dzi3*(
    dxi*(dyi3*C (n+6)+dy3*C (n+y1+6))
    +dx*(dyi3*C (n+x1+6)+dy3*C (n+y1+x1+6)))
    +dz3*(
    dxi*(dyi3*C (n+z1+6)+dy3*C (n+z1+y1+6))
    +dx*(dyi3*C (n+z1+x1+6)+dy3*C (n+z1+y1+x1+6))))
    +xg2*yg2*zg2/216*(
    dzi3*(
    dxi3*(dyi3*C (n+7)+dy3*C (n+y1+7))
    +dx3*(dyi3*C (n+x1+7)+dy3*C (n+y1+x1+7)))
    +dz3*(
    dxi3*(dyi3*C (n+z1+7)+dy3*C (n+z1+y1+7))
    +dx3*(dyi3*C (n+z1+x1+7)+dy3*C (n+z1+y1+x1+7))))

/-- src/spline/interp3Dcomp.c:681-736, with the helper variables of the same function. -/
def form3df1 (C : Int → K) (n x1 y1 z1 : Int) (dx dy dz xg yg zg : K) : K :=
  let dx3dx := 3*dx*dx - 1
  let dxi := 1 - dx
  let dxi3dx := -3*dxi*dxi + 1
  let xgi := 1 / xg
  let dy3 := dy*dy*dy - dy
  let dyi := 1 - dy
  let dyi3 := dyi*dyi*dyi - dyi
  let yg2 := yg*yg
  let dz3 := dz*dz*dz - dz
  let dzi := 1 - dz
  let dzi3 := dzi*dzi*dzi - dzi
  let zg2 := zg*zg
  xgi*(
    dzi*(
    -(dyi*C (n+0)+dy*C (n+y1+0))
    +(dyi*C (n+x1+0)+dy*C (n+y1+x1+0)))
    +dz*(
    -(dyi*C (n+z1+0)+dy*C (n+z1+y1+0))
    +(dyi*C (n+z1+x1+0)+dy*C (n+z1+y1+x1+0))))
    +xg/6*(
    dzi*(
    dxi3dx*(dyi*C (n+1)+dy*C (n+y1+1))
    +dx3dx*(dyi*C (n+x1+1)+dy*C (n+y1+x1+1)))
    +dz*(
    dxi3dx*(dyi*C (n+z1+1)  +dy*C (n+z1+y1+1))
    +dx3dx*(dyi*C (n+z1+x1+1)+dy*C (n+z1+y1+x1+1))))
    +xgi*yg2/6*(
    dzi*(
    -(dyi3*C (n+2)+dy3*C (n+y1+2))
    +(dyi3*C (n+x1+2)+dy3*C (n+y1+x1+2)))
    +dz*(
    -(dyi3*C (n+z1+2)+dy3*C (n+z1+y1+2))
    +(dyi3*C (n+z1+x1+2)+dy3*C (n+z1+y1+x1+2))))
    +xgi*zg2/6*(
    dzi3*(
    -(dyi*C (n+3)+dy*C (n+y1+3))
    +(dyi*C (n+x1+3)+dy*C (n+y1+x1+3)))
    +dz3*(
    -(dyi*C (n+z1+3)+dy*C (n+z1+y1+3))
    +(dyi*C (n+z1+x1+3)+dy*C (n+z1+y1+x1+3))))
    +xg*yg2/36*(
    dzi*(
    dxi3dx*(dyi3*C (n+4)+dy3*C (n+y1+4))
    +dx3dx*(dyi3*C (n+x1+4)+dy3*C (n+y1+x1+4)))
    +dz*(
    dxi3dx*(dyi3*C (n+z1+4)+dy3*C (n+z1+y1+4))
    +dx3dx*(dyi3*C (n+z1+x1+4)+dy3*C (n+z1+y1+x1+4))))
    +xg*zg2/36*(
    dzi3*(
    dxi3dx*(dyi*C (n+5)+dy*C (n+y1+5))
    +dx3dx*(dyi*C (n+x1+5)+dy*C (n+y1+x1+5)))
    +dz3*(
    dxi3dx*(dyi*C (n+z1+5)+dy*C (n+z1+y1+5))
    +dx3dx*(dyi*C (n+z1+x1+5)+dy*C (n+z1+y1+x1+5))))
    +xgi*yg2*zg2/36*(
    dzi3*(
    -(dyi3*C (n+6)+dy3*C (n+y1+6))
    +(dyi3*C (n+x1+6)+dy3*C (n+y1+x1+6)))
    +dz3*(
    -(dyi3*C (n+z1+6)+dy3*C (n+z1+y1+6))
    +(dyi3*C (n+z1+x1+6)+dy3*C (n+z1+y1+x1+6))))
    +xg*yg2*zg2/216*(
    dzi3*(
    dxi3dx*(dyi3*C (n+7)+dy3*C (n+y1+7))
    +dx3dx*(dyi3*C (n+x1+7)+dy3*C (n+y1+x1+7)))
    +dz3*(
    dxi3dx*(dyi3*C (n+z1+7)+dy3*C (n+z1+y1+7))
    +dx3dx*(dyi3*C (n+z1+x1+7)+dy3*C (n+z1+y1+x1+7))))

/-- src/spline/interp3Dcomp.c:739-794, with the helper variables of the same function. -/
def form3df2 (C : Int → K) (n x1 y1 z1 : Int) (dx dy dz xg yg zg : K) : K :=
  let dx3 := dx*dx*dx - dx
  let dxi := 1 - dx
  let dxi3 := dxi*dxi*dxi - dxi
  let xg2 := xg*xg
  let dy3dy := 3*dy*dy - 1
  let dyi := 1 - dy
  let dyi3dy := -3*dyi*dyi + 1
  let ygi := 1 / yg
  let dz3 := dz*dz*dz - dz
  let dzi := 1 - dz
  let dzi3 := dzi*dzi*dzi - dzi
  let zg2 := zg*zg
  ygi*(
    dzi*(
    dxi*(-C (n+0)+C (n+y1+0))
    +dx*(-C (n+x1+0)+C (n+y1+x1+0)))
    +dz*(
    dxi*(-C (n+z1+0)+C (n+z1+y1+0))
    +dx*(-C (n+z1+x1+0)+C (n+z1+y1+x1+0))))
    +ygi*xg2/6*(
    dzi*(
    dxi3*(-C (n+1)+C (n+y1+1))
    +dx3*(-C (n+x1+1)+C (n+y1+x1+1)))
    +dz*(
    dxi3*(-C (n+z1+1)+C (n+z1+y1+1))
    +dx3*(-C (n+z1+x1+1)+C (n+z1+y1+x1+1))))
    +yg/6*(
    dzi*(
    dxi*(dyi3dy*C (n+2)+dy3dy*C (n+y1+2))
    +dx*(dyi3dy*C (n+x1+2)+dy3dy*C (n+y1+x1+2)))
    +dz*(
    dxi*(dyi3dy*C (n+z1+2)+dy3dy*C (n+z1+y1+2))
    +dx*(dyi3dy*C (n+z1+x1+2)+dy3dy*C (n+z1+y1+x1+2))))
    +ygi*zg2/6*(
    dzi3*(
    dxi*(-C (n+3)+C (n+y1+3))
    +dx*(-C (n+x1+3)+C (n+y1+x1+3)))
    +dz3*(
    dxi*(-C (n+z1+3)+C (n+z1+y1+3))
    +dx*(-C (n+z1+x1+3)+C (n+z1+y1+x1+3))))
    +xg2*yg/36*(
    dzi*(
    dxi3*(dyi3dy*C (n+4)+dy3dy*C (n+y1+4))
    +dx3*(dyi3dy*C (n+x1+4)+dy3dy*C (n+y1+x1+4)))
    +dz*(
    dxi3*(dyi3dy*C (n+z1+4)+dy3dy*C (n+z1+y1+4))
    +dx3*(dyi3dy*C (n+z1+x1+4)+dy3dy*C (n+z1+y1+x1+4))))
    +ygi*xg2*zg2/36*(
    dzi3*(
    dxi3*(-C (n+5)+C (n+y1+5))
    +dx3*(-C (n+x1+5)+C (n+y1+x1+5)))
    +dz3*(
    dxi3*(-C (n+z1+5)+C (n+z1+y1+5))
    +dx3*(-C (n+z1+x1+5)+C (n+z1+y1+x1+5))))
    +yg*zg2/36*(
    dzi3*(
    dxi*(dyi3dy*C (n+6)+dy3dy*C (n+y1+6))
    +dx*(dyi3dy*C (n+x1+6)+dy3dy*C (n+y1+x1+6)))
    +dz3*(
    dxi*(dyi3dy*C (n+z1+6)+dy3dy*C (n+z1+y1+6))
    +dx*(dyi3dy*C (n+z1+x1+6)+dy3dy*C (n+z1+y1+x1+6))))
    +xg2*yg*zg2/216*(
    dzi3*(
    dxi3*(dyi3dy*C (n+7)+dy3dy*C (n+y1+7))
    +dx3*(dyi3dy*C (n+x1+7)+dy3dy*C (n+y1+x1+7)))
    +dz3*(
    dxi3*(dyi3dy*C (n+z1+7)+dy3dy*C (n+z1+y1+7))
    +dx3*(dyi3dy*C (n+z1+x1+7)+dy3dy*C (n+z1+y1+x1+7))))

/-- src/spline/interp3Dcomp.c:797-852, with the helper variables of the same function. -/
def form3df3 (C : Int → K) (n x1 y1 z1 : Int) (dx dy dz xg yg zg : K) : K :=
  let dx3 := dx*dx*dx - dx
  let dxi := 1 - dx
  let dxi3 := dxi*dxi*dxi - dxi
  let xg2 := xg*xg
  let dy3 := dy*dy*dy - dy
  let dyi := 1 - dy
  let dyi3 := dyi*dyi*dyi - dyi
  let yg2 := yg*yg
  let dz3dz := 3*dz*dz - 1
  let dzi := 1 - dz
  let dzi3dz := -3*dzi*dzi + 1
  let zgi := 1 / zg
  zgi*(
    -(
    dxi*(dyi*C (n+0)+dy*C (n+y1+0))
    +dx*(dyi*C (n+x1+0)+dy*C (n+y1+x1+0)))
    +(
    dxi*(dyi*C (n+z1+0)+dy*C (n+z1+y1+0))
    +dx*(dyi*C (n+z1+x1+0)+dy*C (n+z1+y1+x1+0))))
    +xg2*zgi/6*(
    -(
    dxi3*(dyi*C (n+1)+dy*C (n+y1+1))
    +dx3*(dyi*C (n+x1+1)+dy*C (n+y1+x1+1)))
    +(
    dxi3*(dyi*C (n+z1+1)+dy*C (n+z1+y1+1))
    +dx3*(dyi*C (n+z1+x1+1)+dy*C (n+z1+y1+x1+1))))
    +yg2*zgi/6*(
    -(
    dxi*(dyi3*C (n+2)+dy3*C (n+y1+2))
    +dx*(dyi3*C (n+x1+2)+dy3*C (n+y1+x1+2)))
    +(
    dxi*(dyi3*C (n+z1+2)+dy3*C (n+z1+y1+2))
    +dx*(dyi3*C (n+z1+x1+2)+dy3*C (n+z1+y1+x1+2))))
    +zg/6*(
    dzi3dz*(
    dxi*(dyi*C (n+3)+dy*C (n+y1+3))
    +dx*(dyi*C (n+x1+3)+dy*C (n+y1+x1+3)))
    +dz3dz*(
    dxi*(dyi*C (n+z1+3)+dy*C (n+z1+y1+3))
    +dx*(dyi*C (n+z1+x1+3)+dy*C (n+z1+y1+x1+3))))
    +xg2*yg2*zgi/36*(
    -(
    dxi3*(dyi3*C (n+4)+dy3*C (n+y1+4))
    +dx3*(dyi3*C (n+x1+4)+dy3*C (n+y1+x1+4)))
    +(
    dxi3*(dyi3*C (n+z1+4)+dy3*C (n+z1+y1+4))
    +dx3*(dyi3*C (n+z1+x1+4)+dy3*C (n+z1+y1+x1+4))))
    +xg2*zg/36*(
    dzi3dz*(
    dxi3*(dyi*C (n+5)+dy*C (n+y1+5))
    +dx3*(dyi*C (n+x1+5)+dy*C (n+y1+x1+5)))
    +dz3dz*(
    dxi3*(dyi*C (n+z1+5)+dy*C (n+z1+y1+5))
    +dx3*(dyi*C (n+z1+x1+5)+dy*C (n+z1+y1+x1+5))))
    +yg2*zg/36*(
    dzi3dz*(
    dxi*(dyi3*C (n+6)+dy3*C (n+y1+6))
    +dx*(dyi3*C (n+x1+6)+dy3*C (n+y1+x1+6)))
    +dz3dz*(
    dxi*(dyi3*C (n+z1+6)+dy3*C (n+z1+y1+6))
    +dx*(dyi3*C (n+z1+x1+6)+dy3*C (n+z1+y1+x1+6))))
    +xg2*yg2*zg/216*(
    dzi3dz*(
    dxi3*(dyi3*C (n+7)+dy3*C (n+y1+7))
    +dx3*(dyi3*C (n+x1+7)+dy3*C (n+y1+x1+7)))
    +dz3dz*(
    dxi3*(dyi3*C (n+z1+7)+dy3*C (n+z1+y1+7))
    +dx3*(dyi3*C (n+z1+x1+7)+dy3*C (n+z1+y1+x1+7))))

/-- src/spline/interp3Dcomp.c:855-882, with the helper variables of the same function. -/
def form3df4 (C : Int → K) (n x1 y1 z1 : Int) (dx dy dz xg yg zg : K) : K :=
  let dxi := 1 - dx
  let dy3 := dy*dy*dy - dy
  let dyi := 1 - dy
  let dyi3 := dyi*dyi*dyi - dyi
  let yg2 := yg*yg
  let dz3 := dz*dz*dz - dz
  let dzi := 1 - dz
  let dzi3 := dzi*dzi*dzi - dzi
  let zg2 := zg*zg
  (
    dzi*(
    dxi*(dyi*C (n+1)+dy*C (n+y1+1))
    +dx*(dyi*C (n+x1+1)+dy*C (n+y1+x1+1)))
    +dz*(
    dxi*(dyi*C (n+z1+1)+dy*C (n+z1+y1+1))
    +dx*(dyi*C (n+z1+x1+1)+dy*C (n+z1+y1+x1+1))))
    +yg2/6*(
    dzi*(
    dxi*(dyi3*C (n+4)+dy3*C (n+y1+4))
    +dx*(dyi3*C (n+x1+4)+dy3*C (n+y1+x1+4)))
    +dz*(
    dxi*(dyi3*C (n+z1+4)+dy3*C (n+z1+y1+4))
    +dx*(dyi3*C (n+z1+x1+4)+dy3*C (n+z1+y1+x1+4))))
    +zg2/6*(
    dzi3*(
    dxi*(dyi*C (n+5)+dy*C (n+y1+5))
    +dx*(dyi*C (n+x1+5)+dy*C (n+y1+x1+5)))
    +dz3*(
    dxi*(dyi*C (n+z1+5)+dy*C (n+z1+y1+5))
    +dx*(dyi*C (n+z1+x1+5)+dy*C (n+z1+y1+x1+5))))
    +yg2*zg2/36*(
    dzi3*(
    dxi*(dyi3*C (n+7)+dy3*C (n+y1+7))
    +dx*(dyi3*C (n+x1+7)+dy3*C (n+y1+x1+7)))
    +dz3*(
    dxi*(dyi3*C (n+z1+7)+dy3*C (n+z1+y1+7))
    +dx*(dyi3*C (n+z1+x1+7)+dy3*C (n+z1+y1+x1+7))))

/-- src/spline/interp3Dcomp.c:885-912, with the helper variables of the same function. -/
def form3df5 (C : Int → K) (n x1 y1 z1 : Int) (dx dy dz xg yg zg : K) : K :=
  let dx3 := dx*dx*dx - dx
  let dxi := 1 - dx
  let dxi3 := dxi*dxi*dxi - dxi
  let xg2 := xg*xg
  let dyi := 1 - dy
  let dz3 := dz*dz*dz - dz
  let dzi := 1 - dz
  let dzi3 := dzi*dzi*dzi - dzi
  let zg2 := zg*zg
  (
    dzi*(
    dxi*(dyi*C (n+2)+dy*C (n+y1+2))
    +dx*(dyi*C (n+x1+2)+dy*C (n+y1+x1+2)))
    +dz*(
    dxi*(dyi*C (n+z1+2)+dy*C (n+z1+y1+2))
    +dx*(dyi*C (n+z1+x1+2)+dy*C (n+z1+y1+x1+2))))
    +xg2/6*(
    dzi*(
    dxi3*(dyi*C (n+4)+dy*C (n+y1+4))
    +dx3*(dyi*C (n+x1+4)+dy*C (n+y1+x1+4)))
    +dz*(
    dxi3*(dyi*C (n+z1+4)+dy*C (n+z1+y1+4))
    +dx3*(dyi*C (n+z1+x1+4)+dy*C (n+z1+y1+x1+4))))
    +zg2/6*(
    dzi3*(
    dxi*(dyi*C (n+6)+dy*C (n+y1+6))
    +dx*(dyi*C (n+x1+6)+dy*C (n+y1+x1+6)))
    +dz3*(
    dxi*(dyi*C (n+z1+6)+dy*C (n+z1+y1+6))
    +dx*(dyi*C (n+z1+x1+6)+dy*C (n+z1+y1+x1+6))))
    +xg2*zg2/36*(
    dzi3*(
    dxi3*(dyi*C (n+7)+dy*C (n+y1+7))
    +dx3*(dyi*C (n+x1+7)+dy*C (n+y1+x1+7)))
    +dz3*(
    dxi3*(dyi*C (n+z1+7)+dy*C (n+z1+y1+7))
    +dx3*(dyi*C (n+z1+x1+7)+dy*C (n+z1+y1+x1+7))))

/-- src/spline/interp3Dcomp.c:915-942, with the helper variables of the same function. -/
def form3df6 (C : Int → K) (n x1 y1 z1 : Int) (dx dy dz xg yg zg : K) : K :=
  let dx3 := dx*dx*dx - dx
  let dxi := 1 - dx
  let dxi3 := dxi*dxi*dxi - dxi
  let xg2 := xg*xg
  let dy3 := dy*dy*dy - dy
  let dyi := 1 - dy
  let dyi3 := dyi*dyi*dyi - dyi
  let yg2 := yg*yg
  let dzi := 1 - dz
  (
    dzi*(
    dxi*(dyi*C (n+3)+dy*C (n+y1+3))
    +dx*(dyi*C (n+x1+3)+dy*C (n+y1+x1+3)))
    +dz*(
    dxi*(dyi*C (n+z1+3)+dy*C (n+z1+y1+3))
    +dx*(dyi*C (n+z1+x1+3)+dy*C (n+z1+y1+x1+3))))
    +xg2/6*(
    dzi*(
    dxi3*(dyi*C (n+5)+dy*C (n+y1+5))
    +dx3*(dyi*C (n+x1+5)+dy*C (n+y1+x1+5)))
    +dz*(
    dxi3*(dyi*C (n+z1+5)+dy*C (n+z1+y1+5))
    +dx3*(dyi*C (n+z1+x1+5)+dy*C (n+z1+y1+x1+5))))
    +yg2/6*(
    dzi*(
    dxi*(dyi3*C (n+6)+dy3*C (n+y1+6))
    +dx*(dyi3*C (n+x1+6)+dy3*C (n+y1+x1+6)))
    +dz*(
    dxi*(dyi3*C (n+z1+6)+dy3*C (n+z1+y1+6))
    +dx*(dyi3*C (n+z1+x1+6)+dy3*C (n+z1+y1+x1+6))))
    +xg2*yg2/36*(
    dzi*(
    dxi3*(dyi3*C (n+7)+dy3*C (n+y1+7))
    +dx3*(dyi3*C (n+x1+7)+dy3*C (n+y1+x1+7)))
    +dz*(
    dxi3*(dyi3*C (n+z1+7)+dy3*C (n+z1+y1+7))
    +dx3*(dyi3*C (n+z1+x1+7)+dy3*C (n+z1+y1+x1+7))))

/-- src/spline/interp3Dcomp.c:945-1000, with the helper variables of the same function. -/
def form3df7 (C : Int → K) (n x1 y1 z1 : Int) (dx dy dz xg yg zg : K) : K :=
  let dx3dx := 3*dx*dx - 1
  let dxi := 1 - dx
  let dxi3dx := -3*dxi*dxi + 1
  let xgi := 1 / xg
  let dy3dy := 3*dy*dy - 1
  let dyi := 1 - dy
  let dyi3dy := -3*dyi*dyi + 1
  let ygi := 1 / yg
  let dz3 := dz*dz*dz - dz
  let dzi := 1 - dz
  let dzi3 := dzi*dzi*dzi - dzi
  let zg2 := zg*zg
  xgi*ygi*(
    dzi*(
    (C (n+0)  -C (n+y1+0))
    -(C (n+x1+0)-C (n+y1+x1+0)))
    +dz*(
    (C (n+z1+0)  -C (n+z1+y1+0))
    -(C (n+z1+x1+0)-C (n+z1+y1+x1+0))))
    +ygi*xg/6*(
    dzi*(
    dxi3dx*(-C (n+1)+C (n+y1+1))
    +dx3dx*(-C (n+x1+1)+C (n+y1+x1+1)))
    +dz*(
    dxi3dx*(-C (n+z1+1)+C (n+z1+y1+1))
    +dx3dx*(-C (n+z1+x1+1)+C (n+z1+y1+x1+1))))
    +xgi*yg/6*(
    dzi*(
    -(dyi3dy*C (n+2)+dy3dy*C (n+y1+2))
    +(dyi3dy*C (n+x1+2)+dy3dy*C (n+y1+x1+2)))
    +dz*(
    -(dyi3dy*C (n+z1+2)+dy3dy*C (n+z1+y1+2))
    +(dyi3dy*C (n+z1+x1+2)+dy3dy*C (n+z1+y1+x1+2))))
    +xgi*ygi*zg2/6*(
    dzi3*(
    (C (n+3)  -C (n+y1+3))
    -(C (n+x1+3)-C (n+y1+x1+3)))
    +dz3*(
    (C (n+z1+3)  -C (n+z1+y1+3))
    -(C (n+z1+x1+3)-C (n+z1+y1+x1+3))))
    +xg*yg/36*(
    dzi*(
    dxi3dx*(dyi3dy*C (n+4)+dy3dy*C (n+y1+4))
    +dx3dx*(dyi3dy*C (n+x1+4)+dy3dy*C (n+y1+x1+4)))
    +dz*(
    dxi3dx*(dyi3dy*C (n+z1+4)+dy3dy*C (n+z1+y1+4))
    +dx3dx*(dyi3dy*C (n+z1+x1+4)+dy3dy*C (n+z1+y1+x1+4))))
    +ygi*xg*zg2/36*(
    dzi3*(
    dxi3dx*(-C (n+5)+C (n+y1+5))
    +dx3dx*(-C (n+x1+5)+C (n+y1+x1+5)))
    +dz3*(
    dxi3dx*(-C (n+z1+5)+C (n+z1+y1+5))
    +dx3dx*(-C (n+z1+x1+5)+C (n+z1+y1+x1+5))))
    +xgi*yg*zg2/36*(
    dzi3*(
    -(dyi3dy*C (n+6)+dy3dy*C (n+y1+6))
    +(dyi3dy*C (n+x1+6)+dy3dy*C (n+y1+x1+6)))
    +dz3*(
    -(dyi3dy*C (n+z1+6)+dy3dy*C (n+z1+y1+6))
    +(dyi3dy*C (n+z1+x1+6)+dy3dy*C (n+z1+y1+x1+6))))
    +xg*yg*zg2/216*(
    dzi3*(
    dxi3dx*(dyi3dy*C (n+7)+dy3dy*C (n+y1+7))
    +dx3dx*(dyi3dy*C (n+x1+7)+dy3dy*C (n+y1+x1+7)))
    +dz3*(
    dxi3dx*(dyi3dy*C (n+z1+7)+dy3dy*C (n+z1+y1+7))
    +dx3dx*(dyi3dy*C (n+z1+x1+7)+dy3dy*C (n+z1+y1+x1+7))))

/-- src/spline/interp3Dcomp.c:1003-1058, with the helper variables of the same function. -/
def form3df8 (C : Int → K) (n x1 y1 z1 : Int) (dx dy dz xg yg zg : K) : K :=
  let dx3dx := 3*dx*dx - 1
  let dxi := 1 - dx
  let dxi3dx := -3*dxi*dxi + 1
  let xgi := 1 / xg
  let dy3 := dy*dy*dy - dy
  let dyi := 1 - dy
  let dyi3 := dyi*dyi*dyi - dyi
  let yg2 := yg*yg
  let dz3dz := 3*dz*dz - 1
  let dzi := 1 - dz
  let dzi3dz := -3*dzi*dzi + 1
  let zgi := 1 / zg
  xgi*zgi*(
    (
    (dyi*C (n+0)+dy*C (n+y1+0))
    -(dyi*C (n+x1+0)+dy*C (n+y1+x1+0)))
    -(
    (dyi*C (n+z1+0)+dy*C (n+z1+y1+0))
    -(dyi*C (n+z1+x1+0)+dy*C (n+z1+y1+x1+0))))
    +xg*zgi/6*(
    -(
    dxi3dx*(dyi*C (n+1)+dy*C (n+y1+1))
    +dx3dx*(dyi*C (n+x1+1)+dy*C (n+y1+x1+1)))
    +(
    dxi3dx*(dyi*C (n+z1+1)+dy*C (n+z1+y1+1))
    +dx3dx*(dyi*C (n+z1+x1+1)+dy*C (n+z1+y1+x1+1))))
    +xgi*yg2*zgi/6*(
    (
    (dyi3*C (n+2)+dy3*C (n+y1+2))
    -(dyi3*C (n+x1+2)+dy3*C (n+y1+x1+2)))
    -(
    (dyi3*C (n+z1+2)+dy3*C (n+z1+y1+2))
    -(dyi3*C (n+z1+x1+2)+dy3*C (n+z1+y1+x1+2))))
    +xgi*zg/6*(
    dzi3dz*(
    -(dyi*C (n+3)+dy*C (n+y1+3))
    +(dyi*C (n+x1+3)+dy*C (n+y1+x1+3)))
    +dz3dz*(
    -(dyi*C (n+z1+3)+dy*C (n+z1+y1+3))
    +(dyi*C (n+z1+x1+3)+dy*C (n+z1+y1+x1+3))))
    +xg*yg2*zgi/36*(
    -(
    dxi3dx*(dyi3*C (n+4)+dy3*C (n+y1+4))
    +dx3dx*(dyi3*C (n+x1+4)+dy3*C (n+y1+x1+4)))
    +(
    dxi3dx*(dyi3*C (n+z1+4)+dy3*C (n+z1+y1+4))
    +dx3dx*(dyi3*C (n+z1+x1+4)+dy3*C (n+z1+y1+x1+4))))
    +xg*zg/36*(
    dzi3dz*(
    dxi3dx*(dyi*C (n+5)+dy*C (n+y1+5))
    +dx3dx*(dyi*C (n+x1+5)+dy*C (n+y1+x1+5)))
    +dz3dz*(
    dxi3dx*(dyi*C (n+z1+5)+dy*C (n+z1+y1+5))
    +dx3dx*(dyi*C (n+z1+x1+5)+dy*C (n+z1+y1+x1+5))))
    +xgi*yg2*zg/36*(
    dzi3dz*(
    -(dyi3*C (n+6)+dy3*C (n+y1+6))
    +(dyi3*C (n+x1+6)+dy3*C (n+y1+x1+6)))
    +dz3dz*(
    -(dyi3*C (n+z1+6)+dy3*C (n+z1+y1+6))
    +(dyi3*C (n+z1+x1+6)+dy3*C (n+z1+y1+x1+6))))
    +xg*yg2*zg/216*(
    dzi3dz*(
    dxi3dx*(dyi3*C (n+7)+dy3*C (n+y1+7))
    +dx3dx*(dyi3*C (n+x1+7)+dy3*C (n+y1+x1+7)))
    +dz3dz*(
    dxi3dx*(dyi3*C (n+z1+7)+dy3*C (n+z1+y1+7))
    +dx3dx*(dyi3*C (n+z1+x1+7)+dy3*C (n+z1+y1+x1+7))))

/-- src/spline/interp3Dcomp.c:1061-1116, with the helper variables of the same function. -/
def form3df9 (C : Int → K) (n x1 y1 z1 : Int) (dx dy dz xg yg zg : K) : K :=
  let dx3 := dx*dx*dx - dx
  let dxi := 1 - dx
  let dxi3 := dxi*dxi*dxi - dxi
  let xg2 := xg*xg
  let dy3dy := 3*dy*dy - 1
  let dyi := 1 - dy
  let dyi3dy := -3*dyi*dyi + 1
  let ygi := 1 / yg
  let dz3dz := 3*dz*dz - 1
  let dzi := 1 - dz
  let dzi3dz := -3*dzi*dzi + 1
  let zgi := 1 / zg
  ygi*zgi*(
    (
    dxi*(C (n+0)  -C (n+y1+0))
    +dx*(C (n+x1+0)-C (n+y1+x1+0)))
    -(
    dxi*(C (n+z1+0)  -C (n+z1+y1+0))
    +dx*(C (n+z1+x1+0)-C (n+z1+y1+x1+0))))
    +ygi*xg2*zgi/6*(
    (
    dxi3*(C (n+1)  -C (n+y1+1))
    +dx3*(C (n+x1+1)-C (n+y1+x1+1)))
    -(
    dxi3*(C (n+z1+1)  -C (n+z1+y1+1))
    +dx3*(C (n+z1+x1+1)-C (n+z1+y1+x1+1))))
    +yg*zgi/6*(
    -(
    dxi*(dyi3dy*C (n+2)+dy3dy*C (n+y1+2))
    +dx*(dyi3dy*C (n+x1+2)+dy3dy*C (n+y1+x1+2)))
    +(
    dxi*(dyi3dy*C (n+z1+2)+dy3dy*C (n+z1+y1+2))
    +dx*(dyi3dy*C (n+z1+x1+2)+dy3dy*C (n+z1+y1+x1+2))))
    +ygi*zg/6*(
    dzi3dz*(
    dxi*(-C (n+3)+C (n+y1+3))
    +dx*(-C (n+x1+3)+C (n+y1+x1+3)))
    +dz3dz*(
    dxi*(-C (n+z1+3)+C (n+z1+y1+3))
    +dx*(-C (n+z1+x1+3)+C (n+z1+y1+x1+3))))
    +xg2*yg*zgi/36*(
    -(
    dxi3*(dyi3dy*C (n+4)+dy3dy*C (n+y1+4))
    +dx3*(dyi3dy*C (n+x1+4)+dy3dy*C (n+y1+x1+4)))
    +(
    dxi3*(dyi3dy*C (n+z1+4)+dy3dy*C (n+z1+y1+4))
    +dx3*(dyi3dy*C (n+z1+x1+4)+dy3dy*C (n+z1+y1+x1+4))))
    +ygi*xg2*zg/36*(
    dzi3dz*(
    dxi3*(-C (n+5)+C (n+y1+5))
    +dx3*(-C (n+x1+5)+C (n+y1+x1+5)))
    +dz3dz*(
    dxi3*(-C (n+z1+5)+C (n+z1+y1+5))
    +dx3*(-C (n+z1+x1+5)+C (n+z1+y1+x1+5))))
    +yg*zg/36*(
    dzi3dz*(
    dxi*(dyi3dy*C (n+6)+dy3dy*C (n+y1+6))
    +dx*(dyi3dy*C (n+x1+6)+dy3dy*C (n+y1+x1+6)))
    +dz3dz*(
    dxi*(dyi3dy*C (n+z1+6)+dy3dy*C (n+z1+y1+6))
    +dx*(dyi3dy*C (n+z1+x1+6)+dy3dy*C (n+z1+y1+x1+6))))
    +xg2*yg*zg/216*(
    dzi3dz*(
    dxi3*(dyi3dy*C (n+7)+dy3dy*C (n+y1+7))
    +dx3*(dyi3dy*C (n+x1+7)+dy3dy*C (n+y1+x1+7)))
    +dz3dz*(
    dxi3*(dyi3dy*C (n+z1+7)+dy3dy*C (n+z1+y1+7))
    +dx3*(dyi3dy*C (n+z1+x1+7)+dy3dy*C (n+z1+y1+x1+7))))

end Ascot.Interp
