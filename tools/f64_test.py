"""Prints a Lean file that counts differences between Model/F64 and the hardware on random numbers: all counts must be 0.
Usage: python3 f64_test.py > /tmp/t.lean; cd lean; lake env lean /tmp/t.lean"""
import random, struct, math
from fractions import Fraction
random.seed(1)
def rnd():
    k=random.random()
    if k<0.3: return float(random.randint(-100000,100000))
    if k<0.6: return random.uniform(-1,1)*2.0**random.randint(-60,60)
    if k<0.8:
        b=random.getrandbits(64); x=struct.unpack('d',struct.pack('Q',b))[0]
        return x if x==x else 1.5
    if k<0.9: return random.choice([0.0,-0.0,5e-324,-5e-324,1.7976931348623157e308,2.2250738585072014e-308,float('inf'),float('-inf')])
    return random.randint(-50,50)/random.choice([2,4,8])
def L(x):
    if x!=x: return ".nan"
    if math.isinf(x): return f"(.inf {'true' if x<0 else 'false'})"
    s='true' if math.copysign(1,x)<0 else 'false'
    f=Fraction(abs(x))
    return f"(.num {s} (mkRat {f.numerator} {f.denominator}))"
out=[]
def div(a,b):
    try: return a/b
    except ZeroDivisionError:
        if a==0 or a!=a: return float('nan')
        return math.copysign(float('inf'), math.copysign(1,a)*math.copysign(1,b))
for i in range(400):
    a,b=rnd(),rnd()
    out.append(f"(F64.add {L(a)} {L(b)}, {L(a+b)})")
    out.append(f"(FloatOps.sub {L(a)} {L(b)}, {L(a-b)})")
    out.append(f"(F64.mul {L(a)} {L(b)}, {L(a*b)})")
    out.append(f"(F64.div {L(a)} {L(b)}, {L(div(a,b))})")
    out.append(f"(F64.sqrt {L(abs(a))}, {L(math.sqrt(abs(a)))})")
for m,k in [(1,7),(1,15),(1,9),(3,1),(12345678901234567,5),(1,300),(-33,2)]:
    out.append(f"(FloatOps.lit ({m}) {k}, {L(float(f'{m}e-{k}'))})")
print("import Verif.Model.F64\nopen Idc\n")
for c in range(0,len(out),200):
  print("#eval ([",",\n".join(out[c:c+200]),"] : List (F64 × F64)).countP (fun p => decide (p.1 ≠ p.2))\n")
