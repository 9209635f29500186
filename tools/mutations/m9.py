import json
L=[]
def m(prop,file,d,old,new,claim,**k):
    L.append(dict(id='m9-%02d'%(len(L)+1),prop=prop,file='Verif/'+file,**{'def':d},old=old,new=new,claim=claim,**k))
F='Plot/LooResidual.lean'
m('C98',F,'signLoo','looOf draws j fun s => modelSpectrum','-looOf draws j fun s => modelSpectrum','sign against the negative model')
m('C98',F,'signLoo','ceData d width j ≥ looOf','ceData d width j ≤ looOf','sign reversed')
m('C98',F,'devAt','-2 * nth sites.loglike j','- nth sites.loglike j','factor two of the deviance')
m('C98',F,'devResLoo','(nth s.lw j, devAt t j)','(nth s.lw j, Real.sqrt (devAt t j))','mean of the roots')
m('C98',F,'devResLoo','(nth s.lw j, devAt t j)','(nth s.lw 0, devAt t j)','weights of the first channel for all')
m('C98',F,'devResLoo','signLoo d width draws j * Real.sqrt','Real.sqrt','sign lost')
m('C98',F,'pearsonDraw','if stat.specNormal then d.netCounts else d.specCounts','d.specCounts','total counts for chi2')
m('C98',F,'pearsonDraw','pearson (nth ((d.back.map (·.counts)).getD []) j)','pearson (nth ((d.back.map (·.errors)).getD []) j)','background errors as counts')
m('C98',F,'pearsonResLoo','(nth s.lw j, |r|)','(nth s.lw j, r)','mean of signed residuals')
m('C98',F,'pearsonResLoo','draws rs) * signLoo d width draws j','draws rs)','sign lost')
m('C98',F,'looQuantile','limitedResidual (chains * draws)','limitedResidual (chains + draws)','number of simulations')
m('C98',F,'looQuantile','pit.1 + u * (pit.2 - pit.1) else pit.2','pit.1 + u * (pit.2 - pit.1) else pit.1','lower end without randomisation')
m('C98',F,'looQuantile','pit.1 + u * (pit.2 - pit.1)','pit.2 + u * (pit.2 - pit.1)','random value above the upper end')
m('C98',F,'looOf','(nth s.lw j, f s)','(0, f s)','weights ignored in the sign')
F='Plot/Cache.lean'
m('C99',F,'Memo.check','⟨w.addr, fun _ => none⟩ else c','⟨w.addr, c.memo⟩ else c','cache not cleared')
m('C99',F,'Memo.check','⟨w.addr, fun _ => none⟩ else c','⟨c.old, fun _ => none⟩ else c','address not updated')
m('C99',F,'Memo.call','Function.update (c.check w).memo k (some','Function.update c.memo k (some','stale entries kept')
m('C99',F,'State.callOuter','let r := s.inner.call f s.held (arg k)','let r := s.inner.call f s.held k','wrong argument of the inner method')
m('C99',F,'State.callOuter','Function.update (s.outer.check s.held).memo k','Function.update s.outer.memo k','stale entries of the outer method')
m('C99',F,'State.callOuter','match (s.outer.check s.held).memo k with','match s.outer.memo k with','no check in the outer method')
m('C99',F,'State.step','{ s with held := ⟨a, some c⟩ }','{ s with held := ⟨a, s.held.content⟩ }','new simulations not stored')
F='Data/Load.lean'
m('C96',F,'finish','let r ← o.group x.erange m scale preserve','let r ← o.group x.erange m none preserve','scale argument dropped')
m('C96',F,'finish','return ⟨name, o, { x with st := r.st }⟩','return ⟨name, o, x⟩','grouping asked for not applied')
m(['C60','C97'],'Data/Ogip.lean','photonGrid','match elo ++ [last] with','match elo with','last edge missing')
m(['C97','C36'],'Models/Spectra.lean','powerlawIntegral','if alpha ≠ 1 then f1 else f2','if alpha ≠ 2 then f1 else f2','index one')
json.dump(L,open('/tmp/mut/m9.json','w'),indent=0)
print(len(L))
