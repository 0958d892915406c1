import sys,json
import os;sys.path.insert(0,os.path.dirname(__file__))
from curve_params import C
C[521]['n']=((2**261-1)<<260)|0xA51868783BF2F966B7FCC0148F709A5D03BB5C9B8899C47AEBB6FB71E91386409
cert={int(k):v for k,v in json.load(open(os.path.dirname(__file__)+'/cert.json')).items()}
cert.update({int(k):v for k,v in json.load(open(os.path.dirname(__file__)+'/cert2.json')).items()})
def emit(k):
    c=C[k];p,n,b,gx,gy=c['p'],c['n'],c['b'],c['gx'],c['gy'];a=p-3
    nq_={256:3,384:19,521:3}[k]
    gid={256:19,384:20,521:21}[k];z=p-{256:10,384:12,521:4}[k]
    t=b*pow(z*a%p,-1,p)%p
    rhs=(t**3+a*t+b)%p
    w=pow(rhs,(p+1)//4,p);assert w*w%p==rhs
    out=[];done={};
    idx=[0]
    def prim(N):
        if N in done: return done[N]
        name=f"pr{k}_{len(done)}"
        if N<10**7:
            out.append(f"theorem {name} : Nat.Prime {N} := by norm_num\n")
            done[N]=name; return name
        ws=cert[N]
        subs=[prim(q) for q,_,_ in ws]
        name=f"pr{k}_{len(done)}"
        # build DvdPred product
        lines=[f"theorem {name} : Nat.Prime {N} := by"]
        expr=None;F=1
        for i,((q,aa,kk),sname) in enumerate(zip(ws,subs)):
            lines.append(f"  have h{i} : DvdPred {N} {q} := dvdPred_prime (a := {aa}) (k := {kk}) {sname}\n    (by decide +kernel) (by decide +kernel) (by decide +kernel) (by decide +kernel) (by decide +kernel)")
        cur="h0";F=ws[0][0]
        for i in range(1,len(ws)):
            q=ws[i][0]
            lines.append(f"  have m{i} : DvdPred {N} {F*q} := by\n    have := dvdPred_mul {cur} h{i} (by decide +kernel)\n    exact this")
            cur=f"m{i}";F*=q
        lines.append(f"  exact pocklington (by decide +kernel) {cur} (by decide +kernel)")
        out.append("\n".join(lines)+"\n")
        done[N]=name
        return name
    np_=prim(p);nq=prim(n)
    hdr=f"""import Verif.Sae.Check
import Mathlib.Tactic.NormNum.Prime

/-!
# The hypotheses of the SAE theorems hold for P-{k}

Generated by tools/curves.py.  The parameters are those of FIPS 186 / SEC 2
(wolfCrypt's `ecc_sets` entry that `sae_ctx_init`, sae_crypto.c:172-217, reads);
the primality certificates are Pocklington's.
-/

namespace Wolf.Sae

def cv{k} : Curve :=
  ⟨{p},
   {n},
   {a},
   {b}⟩

"""
    tail=f"""
instance fact{k} : Fact cv{k}.p.Prime := ⟨{np_}⟩

theorem ok{k} {{g : Grp}} (hg : saeGroup {gid} = some g) :
    CurveOk g cv{k}
      {gx}
      {gy}
      {z}
      {t}
      {w} {nq_} := by
  have e : (⟨{gid}, {{256:'sha256, 32, 32, 48',384:'sha384, 48, 48, 72',521:'sha512, 66, 64, 99'}}⟩ : Grp) = g := by
    have h : saeGroup {gid} = some ⟨{gid}, SHA⟩ := rfl
    rw [h] at hg
    exact Option.some.inj hg
  subst e
  exact ⟨{np_}, {nq}, {', '.join(['by decide +kernel']*32)}⟩
""".replace("{256:'sha256, 32, 32, 48',384:'sha384, 48, 48, 72',521:'sha512, 66, 64, 99'}","SHA").replace("SHA",{256:'sha256, 32, 32, 48',384:'sha384, 48, 48, 72',521:'sha512, 66, 64, 99'}[k])
    tail+=f"""
end Wolf.Sae
"""
    return hdr+"\n".join(out)+tail
for k in map(int,sys.argv[1:]):
    open(f'/verif/lean/Verif/Sae/P{k}.lean','w').write(emit(k))
