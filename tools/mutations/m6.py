import json
L=[]
def m(prop,file,d,old,new,claim,**k):
    L.append(dict(id='m6-%02d'%(len(L)+1),prop=prop,file='Verif/'+file,**{'def':d},old=old,new=new,claim=claim,**k))
F='Infer/SimObs.lean'
m('C86',F,'clipBack','b.map fun x => max x 0','b.map fun x => max x 1','background clipped at one')
m('C86',F,'SimInput.checkBack','clipBack (i.specPoisson || p)','clipBack p','background not clipped for Poisson source')
m('C86',F,'simBack','b.exposure i.backArea i.backBack','b.exposure i.specArea i.specBack','background given the source scales')
m('C86',F,'SimInput.mean','i.specExposure * area * at0 (expand n i.specBack) c / den','i.specExposure * at0 (expand n i.specBack) c / den','area scale dropped from the ratio')
m('C86',F,'SimInput.mean','at0 (expand n i.backArea) c * at0 (expand n i.backBack) c','at0 (expand n i.backBack) c','background area scale dropped')
m('C86',F,'SimInput.mean','/ den * at0 b.counts c)','/ den)','background counts dropped')
m('C86',F,'simSpectrum','errors := if poisson then d.1.map Real.sqrt else errors','errors := if poisson then d.1 else errors','Poisson errors not square roots')
m('C86',F,'simSpectrum','areaScale := .inr (expand mean.length area), backScale := .inr (expand mean.length back)','areaScale := .inr (expand mean.length back), backScale := .inr (expand mean.length area)','scales swapped in the stored spectrum')
m('C86',F,'simSpectrum','quality := i.quality, grouping','quality := none, grouping','quality not carried over')
m('C86',F,'simSpectrum','grouping := i.grouping,','grouping := none,','grouping not carried over')
m('C86',F,'simulate','simSpectrum g b.2 i i.specPoisson','simSpectrum g s i i.specPoisson','generator reused for source and background')
m('C86',F,'simulate','let o ← Obs.make sp.1 b.1 resp i.ignoreBad','let o ← Obs.make sp.1 none resp i.ignoreBad','background dropped')
m('C86',F,'simulate','[(i.emin.headD 0, i.emax.getLastD 0)]','[(i.emin.headD 0, i.emin.getLastD 0)]','range ends at the last lower edge')
m('C86',F,'simulate','if !isAdd then .error .typeError','if false then .error .typeError','non-additive model accepted')
m('C86',F,'fromDataInput','specExposure := specExposure.getD o.spec.exposure','specExposure := o.spec.exposure','exposure override ignored')
m('C86',F,'fromDataInput','backExposure.getD b.exposure','specExposure.getD b.exposure','source exposure used for background')
m('C86',F,'fromDataInput','if b then 0 else 1','if b then 1 else 0','quality inverted')
m('C86',F,'fromDataInput','grouping := some x.st.grouping','grouping := some o.spec.grouping','original instead of current grouping')
m('C86',F,'fromDataInput','| some b => .inr b.areaScale','| some _ => .inr o.spec.areaScale','background area scale from source')
m('C86',F,'simulateFromData','match r.2.setErange r.1 x.erange with','match r.2.setErange r.1 r.2.erange with','energy ranges not carried over')
m('C86',F,'drawCounts','if poisson then drawPoisson g s mean else drawNormal g s mean sd','if poisson then drawNormal g s mean sd else drawPoisson g s mean','kinds swapped')
m('C84','Infer/IData.lean','relEff','| .mcmc => if chains = 1 then 1 else meanRelative','| .mcmc => meanRelative','single chain')
m('C70','Util/FiniteDiff.lean','parseMethod','| none => .ok .central','| none => .ok .forward','default method')
json.dump(L,open('/tmp/mut/m6.json','w'),indent=1)
