#!/usr/bin/env python3
"""Writes lean/Verif/Lemmas/EndToEndGen.lean: for every measure and estimator family, the public call equals the
model function of the estimator, evaluated with the keyword arguments or their defaults."""
import os
SIMPLE = ["discrete","millerMadow","grassberger","chaoShen","chaoWangJost","shrink","zhang","bonachela"]
BIAS = SIMPLE[2:]
COMMON = {
 "h": [("base","W.b0")],
 "mi": [("offset",".int 0"),("base","W.b0"),("seed",".none")],
 "cmi": [("offset",".int 0"),("base","W.b0"),("seed",".none")],
 "te": [("prop_time",".int 0"),("step_size",".int 1"),("src_hist_len",".int 1"),("dest_hist_len",".int 1"),("cond_hist_len",".int 1"),("offset",".none"),("base","W.b0"),("seed",".none")],
}
COMMON["cte"]=COMMON["te"]
def noise(k,f): return ".num (1 / 10 ^ 10)" if f=="metric" and k in("h","mi","cmi") else ".num (1 / 10 ^ 8)"
def req(k,f):
    if f=="bayes": return ["alpha"]
    if (k,f)==("h","kernel"): return ["bandwidth","kernel"]
    if f=="ordinal" and k in("h","te","cte"): return ["embedding_dim"]
    return []
def own(k,f):
    if f=="ansb": return ([("K",".none")] if k=="h" else [])+[("undersampled",".num (1 / 10)")]
    if f in("bayes","nsb"): return [("K",".none")]
    if f=="kernel": return ([] if k=="h" else [("bandwidth",".none"),("kernel",".none")])+[("workers",".int 1")]
    if f=="metric": return [("k",".int 4"),("ksg_id",".int 1"),("noise_level",noise(k,f)),("minkowski_p",".inf")]
    if f=="ordinal":
        if k=="h": return [("step_size",".int 1"),("stable",".bool false")]
        if k in("mi","cmi"): return [("embedding_dim",".none"),("step_size",".int 1"),("stable",".bool false")]
        return [("stable",".bool false")]
    if f in("renyi","tsallis"):
        return [("k",".int 4"),("alpha" if f=="renyi" else "q",".none")]+([] if k=="h" else [("noise_level",noise(k,f))])
    return []
def norm(k,f): return [("normalize",".bool false")] if k in("mi","cmi") and f not in("discrete","millerMadow","ordinal") else []
def ign(k,f): return ["step_size"] if k in("mi","cmi") and f in("renyi","tsallis") else []
# converters used: key -> (var, type, converter)
def convs(k,f):
    c={"base":("b","Base","PyVal.toBase")}
    if k in("mi","cmi"): c["offset"]=("o","Option Int","PyVal.toOptInt")
    if k in("te","cte"):
        c.update({"prop_time":("u","Option PyArg","PyVal.toOptArg"),"offset":("o","Option PyArg","PyVal.toOptArg"),
          "src_hist_len":("sh","PyArg","PyVal.toArg"),"dest_hist_len":("dh","PyArg","PyVal.toArg"),"step_size":("s","PyArg","PyVal.toArg")})
        if k=="cte": c["cond_hist_len"]=("ch","PyArg","PyVal.toArg")
    if k in("mi","cmi") and norm(k,f):
        c["normalize"]=("nm","Bool","PyVal.toBool")
    if f=="kernel": c.update({"bandwidth":("h","PyArg","PyVal.toArg"),"kernel":("kn","Kernel","(PyVal.toKernel W.eig)"),"workers":("w","Int","PyVal.toInt")})
    if f=="metric":
        c.update({"k":("k","PyArg","PyVal.toArg") if k=="h" else ("k","Nat","PyVal.toNat"),"ksg_id":("i","Int","PyVal.toInt"),
          "noise_level":("v","ℝ","PyVal.toNum" if k=="h" else "PyVal.toNoise"),"minkowski_p":("mp","PNorm","PyVal.toPNorm")})
    if f=="ordinal":
        c["embedding_dim"]=("d","PyArg","PyVal.toArg"); c["step_size"]=("s","PyArg","PyVal.toArg"); c["stable"]=("st","Bool","PyVal.toBool")
    if f in("renyi","tsallis"):
        c["k"]=("k","PyArg","PyVal.toArg"); c["alpha" if f=="renyi" else "q"]=("q","PyArg","PyVal.toArg")
        if k!="h": c["noise_level"]=("v","ℝ","PyVal.toNoise")
    if f=="bayes": c["alpha"]=("al","AlphaArg","PyVal.toAlpha"); c["K"]=("K","Option Nat","PyVal.toOptNat") if k=="h" else ("K","Option PyArg","PyVal.toOptArg")
    if f=="nsb": c["K"]=("K","Option Int","PyVal.toOptInt") if k=="h" else ("K","Option PyArg","PyVal.toOptArg")
    if f=="ansb":
        if k=="h": c["K"]=("K","Option Int","PyVal.toOptInt")
        else: c["undersampled"]=("us","ℝ","PyVal.toNum")
    return c
VEC=False
def dataconv(k,f):
    if VEC:
        if f in("kernel","metric","renyi","tsallis","ordinal"): return ("PyData.toRows","List (List ℝ)")
        return ("PyData.toIntRows","List (List Int)")
    if f in("kernel","metric","renyi","tsallis"):
        return None if k=="h" else ("PyData.toKVar","KVar") if k in("mi","cmi") else ("PyData.toSeries","List ℝ")
    if f=="ordinal": return None if k=="h" else ("PyData.toSeries","List ℝ")
    if k=="h": return ("PyData.toEInput","EInput")
    return ("PyData.toInts","List Int")
def bclass(f):
    if f=="bayes": return "(.bayes al K)"
    if f=="ansb": return "(.ansb us)"
    return "."+f
def condconv(k,f,dc):
    return ("PyData.toCondSeries","CondSeries") if VEC and f in("discrete","millerMadow") else dc
def val(k,f):
    r=val0(k,f)
    if not VEC: return r
    if f in("discrete","millerMadow"):
        return r.replace("discreteTE ","discreteTEVec ") if k=="te" else r.replace("discreteCTE ","discreteCTEOf ").replace("(some z)","z")
    for n in ("kernelTE","kernelCTE","ksgTE","ksgCTE","expTE","expCTE","nsbTE","nsbCTE","biasTE","biasCTE"):
        r=r.replace(n+" ",n+"Vec ")
    return r.replace("noise1","noise2")
def val0(k,f):
    ev={"renyi":"renyiVal","tsallis":"tsallisVal"}.get(f)
    kc="{ bandwidth := h, kernel := kn, workers := resolveWorkers W.cpu w }"
    gc="{ k := k, ksgId := i, p := mp }"
    oc="{ dim := d, step := s, stable := st }"
    tc="{ srcHist := sh, destHist := dh, step := s }"
    if k=="h":
        if f=="kernel": return f"kernelEntropy (data.map PyData.toKArg) {kc} b"
        if f=="metric": return "(open Classical in klEntropy (data.map PyData.toKArg) { k := k, ksgId := i, noiseNegative := decide (v < 0), p := mp } (W.noise2 v 0) (W.noise2 v 1) b)"
        if f=="ordinal": return f"ordEntropy W.quick (data.map PyData.toOInput) {oc} b"
        if ev: return f"expEntropy {ev} (data.map PyData.toKArg) k q b"
        if f=="nsb": return "nsbEntropy W.find K b xs"
        c={"bayes":"(.bayes al K)","ansb":"(.ansb K)"}.get(f,"."+f)
        return f"DClass.globalVal {c} b xs"
    z={"mi":"","cmi":" (some z)"}.get(k,"")
    M={"mi":"MI","cmi":"CMI","te":"TE","cte":"CTE"}[k]
    if k in("mi","cmi"):
        if f in("discrete","millerMadow"):
            m="true" if f=="millerMadow" else "false"
            return f"discreteMI (.all1D xs) o b {m}" if k=="mi" else f"discreteCMI xs (some (.arr1 z)) o b {m}"
        if f=="ordinal": return f"ord{M} W.quick xs{z} {oc} o b"
        if f=="kernel": return f"kernel{M} xs{z} o nm {kc} b"
        nz="(W.noise2 v)"+("" if k=="mi" else " (W.noise2 v xs.length)")
        if f=="metric" and k=="cmi": nz="(W.noise2 v) (W.noiseSum v xs.length ((xs.map KVar.len).headD 0))"
        if f=="metric": return f"ksg{M} xs{z} o nm {gc} {nz} b"
        if ev: return f"exp{M} {ev} xs{z} o nm k q {nz} b"
        zz="" if k=="mi" else " z"
        if f=="nsb": return f"nsb{M} W.find K xs{zz} o b"
        return f"bias{M} {bclass(f)} xs{zz} o b"
    zz="" if k=="te" else " (some z)"
    ch="" if k=="te" else " ch"
    n="(W.noise1 v 0) (W.noise1 v 1)"+("" if k=="te" else " (W.noise1 v 2)")
    if f in("discrete","millerMadow"): return f"discrete{M} x y{zz} {tc}{ch} u o b {'true' if f=='millerMadow' else 'false'}"
    if f=="ordinal":
        q=f"{{ dim := d, te := {tc}, stable := st"+(" }" if k=="te" else ", condHist := ch }")
        return f"ord{M} W.quick x y{zz} {q} u o b"
    if f=="kernel": return f"kernel{M} x y{zz} {tc}{ch} u o {kc} b"
    if f=="metric": return f"ksg{M} x y{zz} {tc}{ch} u o {gc} {n} b"
    if ev: return f"exp{M} {ev} x y{zz} {tc}{ch} u o k q {n} b"
    if f=="nsb": return f"nsb{M} W.find K x y{zz} {tc}{ch} u o b"
    return f"bias{M} {bclass(f)} x y{zz} {tc}{ch} u o b"
EVAL={"h":"im_entropy_eval","mi":"im_mi_eval","cmi":"im_cmi_eval","te":"im_te_eval","cte":"im_cte_eval"}
DOC={"h":"Est.entropy","mi":"Est.mi","cmi":"Est.cmi","te":"Est.teVal","cte":"Est.cteVal"}
FAMS=SIMPLE+["bayes","ansb","nsb","ordinal","kernel","metric","renyi","tsallis"]
def lemma(k,f):
    R=req(k,f); O=own(k,f)+norm(k,f)+COMMON[k]; names=R+[o[0] for o in O]+ign(k,f)
    C=convs(k,f); dc=dataconv(k,f)
    out=[]
    vars_=[]; hyps=[]
    od=dict(O); seen=[]
    for key in R+[o[0] for o in O]:
        if key not in C or key in seen: continue
        seen.append(key)
        v,t,cv=C[key]
        simpN = key=="normalize" and f in BIAS+["bayes","ansb","nsb"]
        if simpN:
            hyps.append((key,f'(kwOr kw "{key}" ({od[key]})).toBool = some false',"false",cv)); continue
        vars_.append(f"{{{v} : {t}}}")
        if key in R: hyps.append((key,f'(kw "{key}").bind {cv} = some {v}',v,cv))
        else:
            cc = f"PyVal.toKernel W.eig (kwOr kw \"{key}\" ({od[key]}))" if key=="kernel" else f'(kwOr kw "{key}" ({od[key]})).{cv.split(".")[1]}'
            hyps.append((key,f'{cc} = some {v}',v,cv))
    nm=f"e2e_{'v' if VEC else ''}{k}_{f}"
    sig=f"theorem {nm} "
    args="{W : World} "
    if k in("te","cte"):
        args+="{dx dy : PyData} "; data="[dx, dy]"
    else:
        args+="{data : List PyData} "; data="data"
    args+="{a : PyName} {kw : Kw} "
    if k in("mi","te"): args+="{cond : CondKw PyData} (hc : cond.isVal = false) "
    if k in("cmi","cte"): args+="{dz : PyData} "
    args+=f"(ha : Names W.lower .{k} a .{f}) "
    if k in("mi","cmi"): args+="(hd : 2 ≤ data.length) "
    args+="\n    (h4 : Only ["+", ".join(f'"{x}"' for x in names)+"] kw)\n    "
    args+=" ".join(vars_)+" "
    hn=[]
    for j,(key,h,v,cv) in enumerate(hyps):
        args+=f"\n    (h_{key} : {h})"
    if dc:
        cv,t=dc
        if k in("te","cte"):
            args+=f"\n    {{x y : {t}}} (hx : {cv} dx = some x) (hy : {cv} dy = some y)"
        else: args+=f"\n    {{xs : List ({t})}} (hx : data.mapM {cv} = some xs)"
        if k in("cmi","cte"):
            cv,t=condconv(k,f,dc)
            args+=f" {{z : {t}}} (hz : {cv} dz = some z)"
    V=val(k,f)
    if k=="h": concl=f"imEntropy W data a .absent kw = {V} ∧\n      (2 ≤ data.length → imCrossEntropy W data a .absent kw = {V})"
    elif k=="mi": concl=f"imMI W data a cond kw = {V}"
    elif k=="cmi": concl=f"imCMI W data a (.val dz) kw = {V} ∧\n      imMI W data a (.val dz) kw = {V}"
    elif k=="te": concl=f"imTE W [dx, dy] a cond kw = {V}"
    else: concl=f"imCTE W [dx, dy] a (.val dz) kw = {V} ∧\n      imTE W [dx, dy] a (.val dz) kw = {V}"
    cnd="(some dz)" if k in("cmi","cte") else "none"
    if R:
        h3="(by\n    intro r hr\n    simp only [requiredKw, List.mem_cons, List.not_mem_nil, or_false] at hr\n    "
        h3+= "rcases hr with "+" | ".join("rfl" for _ in R)+"\n"
        for r in R: h3+=f"    · intro hn; rw [hn] at h_{r}; simp at h_{r}\n"
        h3=h3.rstrip("\n")+")"
    else: h3="(by simp [requiredKw])"
    pr="by\n"
    vals=f"have hv : ∀ p : Kw, (∀ r ∈ requiredKw .{k} .{f}, p r = kw r) →\n      (∀ o ∈ optionalKw W.b0 ⟨.{k}, .{f}⟩, p o.1 = some (kwOr kw o.1 o.2)) →\n      Est.result W ⟨⟨.{k}, .{f}⟩, {data}, {cnd}, p⟩ = {V} := by\n    intro p hr ho\n"
    for key,h,v,cv in hyps:
        vals+=f'    have g_{key} : Est.get ⟨⟨.{k}, .{f}⟩, {data}, {cnd}, p⟩ "{key}" {cv} = some {v} := by\n'
        if key in R: vals+=f'      show (p "{key}").bind _ = _\n      rw [hr "{key}" (by simp [requiredKw])]; exact h_{key}\n'
        else: vals+=f'      show (p "{key}").bind _ = _\n      rw [ho ("{key}", {od[key]}) (by simp [optionalKw, ownKw, normalizeKw, commonKw, defaultNoise])]; exact h_{key}\n'
    S=["Est.result",DOC[k],"bind","Option.bind","Option.getD_some"]+[f"g_{key}" for key,*_ in hyps]
    if dc: S.append("hx")
    if dc and k in("te","cte"): S+=["hy","Est.pair"]
    if dc and k in("cmi","cte"): S.append("hz")
    if f=="kernel": S.append("Est.kde")
    if f=="metric" and k!="h": S.append("Est.ksg")
    if f=="ordinal": S.append("Est.ord" if k in("h","mi","cmi") else "Est.ordTe")
    if k in("te","cte"): S.append("Est.te")
    if f in("renyi","tsallis"): S.append("expFam")
    if k=="h" and f in SIMPLE+["bayes","ansb"]: S.append("Est.dclass")
    if k!="h" and f in BIAS+["bayes","ansb"]: S.append("Est.bclass")
    if k in("mi","cmi") and f in BIAS+["bayes","ansb","nsb"]: S+=["Bool.false_eq_true","if_false"]
    # for Rényi/Tsallis `g_alpha` must match after unfolding expFam: fold first
    vals+="    simp only ["+", ".join(S)+"]\n"
    pr+="  "+vals
    E=EVAL[k]
    h4="h4"
    if k=="h":
        pr+=f"  refine ⟨?_, fun hd => ?_⟩\n  · obtain ⟨p, e, hr, ho⟩ := im_entropy_eval W data a kw ha {h3} h4\n    rw [e, hv p hr ho]\n"
        pr+=f"  · obtain ⟨p, e, hr, ho⟩ := im_cross_eval W data a kw ha hd {h3} h4\n    rw [e, hv p hr ho]\n"
    elif k=="mi": pr+=f"  obtain ⟨p, e, hr, ho⟩ := im_mi_eval W data a cond kw ha hc hd {h3} h4\n  rw [e, hv p hr ho]\n"
    elif k=="te": pr+=f"  obtain ⟨p, e, hr, ho⟩ := im_te_eval W a cond kw dx dy ha hc {h3} h4\n  rw [e, hv p hr ho]\n"
    elif k=="cmi": pr+=f"  obtain ⟨p, e, e', hr, ho⟩ := im_cmi_eval W data a kw dz ha hd {h3} h4\n  rw [e, e', hv p hr ho]\n  exact ⟨rfl, rfl⟩\n"
    else: pr+=f"  obtain ⟨p, e, e', hr, ho⟩ := im_cte_eval W a kw dx dy dz ha {h3} h4\n  rw [e, e', hv p hr ho]\n  exact ⟨rfl, rfl⟩\n"
    if VEC:
        concl=concl.replace("imTE W ","imTE W.vec ").replace("imCTE W ","imCTE W.vec ")
        pr=pr.replace("Est.result W ⟨","Est.result W.vec ⟨").replace("    simp only [Est.result,","    refine result_vec ?_\n    simp (maxSteps := 2000000) only [Est.vecVal,")
        pr=pr.replace("Est.teVal","Est.teVec").replace("Est.cteVal","Est.cteVec").replace("_eval W ","_eval W.vec ").replace(" bind, Option.bind, Option.getD_some,"," Option.bind_eq_bind, Option.bind_some,")
    return sig+args+" :\n    "+concl+" := "+pr
import sys
HEAD='''import Verif.Lemmas.EndToEnd

/-!
# Lemmas: what each public call evaluates, estimator by estimator (%s)

Generated by `tools/gen_e2e.py`.  Each lemma: with only accepted keyword arguments, the value of the public function is
the model function of the estimator, at the given keyword arguments or the documented defaults.
-/

set_option linter.unusedSimpArgs false
set_option linter.unusedVariables false

namespace Verif

'''
root=os.path.join(os.path.dirname(os.path.abspath(__file__)),"..","lean","Verif","Lemmas")
for k,n in [("h","Entropy"),("mi","MI"),("cmi","CMI"),("te","TE"),("cte","CTE")]:
    body=HEAD%n+"\n".join(lemma(k,f) for f in FAMS)+"\nend Verif\n"
    open(os.path.join(root,f"EndToEnd{n}.lean"),"w").write(body)
VEC=True
body=HEAD.replace("import Verif.Lemmas.EndToEnd\n","import Verif.Lemmas.EndToEnd\nimport Verif.Lemmas.EndToEndVec\n")%"transfer entropy of vector-valued series"
body+="\n".join(lemma(k,f) for k in("te","cte") for f in FAMS if f!="ordinal")+"\nend Verif\n"
open(os.path.join(root,"EndToEndVecGen.lean"),"w").write(body)
